import Verif.Loop

/-!
# Model of the questions about a mesh

src/fv/share/tdymeshplex.c: `AreFacesNeighbors` (10-31), `TDyMeshFindFaceIDShareByTwoCells` (206-232),
`TDyMeshGetNumLocalCells` (471-475), `TDyMeshGetLocalCellNaturalIDs` (477-491) and
`TDyMeshGetCellIsLocal` (538-554).  Within the library nothing calls them.

Simplified: identifiers are integers; the message of the error is left out.
-/

namespace TDy.MeshQuery

open TDy

/-- The parts of the mesh that are read. -/
structure Mesh where
  numCells : Nat
  numCellsLocal : Nat
  faceOffset : Nat → Nat
  faceIds : Nat → Int
  naturalId : Nat → Int
  isLocal : Nat → Bool
  edgeOffset : Nat → Nat
  numEdges : Nat → Nat
  edgeIds : Nat → Int

/-- tdymesh.c 988-996, `TDyMeshGetCellFaces`: the array of the faces of a cell and their number. -/
def cellFaces (m : Mesh) (c : Nat) : (Nat → Int) × Nat :=
  (fun i => m.faceIds (m.faceOffset c + i), m.faceOffset (c + 1) - m.faceOffset c)

/-- The variables of the two nested loops: what has been stored, and whether the inner loop was left. -/
structure Search where
  face : Option Int
  brk : Bool

/-- tdymeshplex.c 216-224: the two loops; `face` is `none` as long as `found` is false. -/
def searchLoops (a : Nat → Int) (na : Nat) (b : Nat → Int) (nb : Nat) : Option Int :=
  forN na (fun i face =>
    (forN nb (fun j s =>
      if s.brk then s
      else if a i = b j then { face := some (a i), brk := true }
      else s) { face := face, brk := false : Search }).face) none

/-- tdymeshplex.c 206-232, `TDyMeshFindFaceIDShareByTwoCells`: the face, or `none` for the error. -/
def findShared (m : Mesh) (c1 c2 : Nat) : Option Int :=
  searchLoops (cellFaces m c1).1 (cellFaces m c1).2 (cellFaces m c2).1 (cellFaces m c2).2

/-- tdymeshplex.c 10-31, `AreFacesNeighbors`: the value it returns as its error code. -/
def areFacesNeighbors (m : Mesh) (f1 f2 : Nat) : Bool :=
  forN (m.numEdges f1) (fun i are =>
    (forN (m.numEdges f2) (fun j (s : Bool × Bool) =>
      if s.2 then s
      else if m.edgeIds (m.edgeOffset f1 + i) = m.edgeIds (m.edgeOffset f2 + j) then (true, true)
      else s) (are, false)).1) false

/-- tdymeshplex.c 471-475, `TDyMeshGetNumLocalCells` -/
def getNumLocalCells (m : Mesh) : Nat := m.numCellsLocal

/-- tdymeshplex.c 477-491, `TDyMeshGetLocalCellNaturalIDs`: the count and the array of the caller. -/
def getLocalCellNaturalIDs (m : Mesh) (out : Nat → Int) : Nat × (Nat → Int) :=
  forN m.numCells (fun icell s => (s.1 + 1, wr s.2 s.1 (m.naturalId icell))) (0, out)

/-- tdymeshplex.c 538-554, `TDyMeshGetCellIsLocal`: the count and the array of the caller. -/
def getCellIsLocal (m : Mesh) (out : Nat → Int) : Nat × (Nat → Int) :=
  forN m.numCells (fun icell s =>
    (s.1 + 1, if m.isLocal icell then wr s.2 s.1 1 else wr s.2 s.1 0)) (0, out)

end TDy.MeshQuery
