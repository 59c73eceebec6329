import Verif.Model.Topology

/-!
# What a consistent cell topology is
-/

namespace TDy.Topology.Spec

/-- The directed edges of a polygon given by its corners in cyclic order. -/
def boundary (l : List Nat) : List (Nat × Nat) := l.zip (l.rotateLeft 1)

/-- The corners of the faces of a cell. -/
def faces (ct : Int) : List (List Nat) :=
  (List.range (numFaces ct).toNat).map (fun i => (getFaceVertices ct i).getD [])

/-- All directed edges of all faces of a cell. -/
def directedEdges (ct : Int) : List (Nat × Nat) := (faces ct).flatMap boundary

/-- A closed, consistently oriented surface of sphere type with the advertised counts. -/
structure Consistent (ct : Int) : Prop where
  /-- Euler's formula. -/
  euler : numVertices ct - numEdges ct + numFaces ct = 2
  /-- One neighbour behind every face. -/
  neighbors : numNeighbors ct = numFaces ct
  /-- Every face is listed, with the advertised number of corners, by both tables. -/
  corners : ∀ i : Nat, (i : Int) < numFaces ct →
    ∃ l, getFaceVertices ct i = some l ∧ (l.length : Int) = faceVertices ct i
      ∧ faceTypeVertices (faceType ct i) = faceVertices ct i
  /-- A face beyond the last is refused. -/
  noMore : ∀ i : Nat, numFaces ct ≤ (i : Int) → getFaceVertices ct i = none
  /-- The corners are vertices of the cell, and every vertex is a corner. -/
  vertices : ∀ v : Nat, (v : Int) < numVertices ct ↔ ∃ f ∈ faces ct, v ∈ f
  /-- No face passes twice through a vertex. -/
  simple : ∀ f ∈ faces ct, f.Nodup
  /-- Every edge is run through once in each direction: by two faces of opposite orientation. -/
  oriented : (directedEdges ct).Nodup ∧ ∀ a b, (a, b) ∈ directedEdges ct → (b, a) ∈ directedEdges ct
  /-- The advertised number of edges. -/
  edges : ((directedEdges ct).length : Int) = 2 * numEdges ct
  /-- Room for all edges of a face (a face has as many edges as corners), and not more than needed. -/
  faceEdges : (∀ i < (numFaces ct).toNat, faceVertices ct i ≤ maxFaceEdges ct) ∧
    ∃ i < (numFaces ct).toNat, faceVertices ct i = maxFaceEdges ct
  /-- Room for the two cells kept for an edge. -/
  edgeCells : 2 ≤ maxCellsPerEdge ct

end TDy.Topology.Spec
