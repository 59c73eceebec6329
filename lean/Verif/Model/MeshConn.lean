import Mathlib.Data.List.Basic
import Verif.Basic
import Verif.Loop

/-!
# Connectivity of a mesh read from a DMPlex

DetermineConnectivity (src/fv/share/tdymeshplex.c:3174-3411), IdentifyLocalVertices (315-339),
IdentifyLocalFaces (395-443) and UpdateFaceOrderAroundAVertex (1266-1321).

The mesh itself is what DMPlex answers: the closure of each cell and face (saved by TDySaveClosures)
and the support of each face.  The id tables are two-dimensional here, `a e k` standing for
`a[offset[e] + k]` with the loose layout of the allocation (Model/MeshTables.lean).
Not modelled: edges (nothing reads `edges->is_local` or `edges->cell_ids` in three dimensions), and
`vertices->num_boundary_faces` being raised for edges with a single face (tdymeshplex.c:3296), which
do not occur in a three-dimensional mesh.
-/

namespace TDy.Mesh

/-- `a[i][j] = v` -/
def wr2 {α : Type} (a : Nat → Nat → α) (i j : Nat) (v : α) : Nat → Nat → α :=
  fun i' j' => if i' = i ∧ j' = j then v else a i' j'

/-- A point of a closure, by stratum and index in the stratum (IsClosureWithinBounds,
tdymeshplex.c:3213-3254). -/
inductive Point where
  | vertex (i : Nat)
  | edge (i : Nat)
  | face (i : Nat)
  | cell (i : Nat)
  deriving DecidableEq, Repr

/-- What DMPlex answers about the mesh. -/
structure Plex where
  nCells : Nat
  nFaces : Nat
  /-- The closure of a cell, in the order DMPlexGetTransitiveClosure lists it. -/
  closure : Nat → List Point
  /-- The vertices in the closure of a face. -/
  faceVerts : Nat → List Nat
  /-- DMPlexGetSupportSize of a face. -/
  supportSize : Nat → Nat

/-! ## Cells, their vertices and faces -/

/-- The tables written by the loop over cells (tdymeshplex.c:3202-3268), with its two counters. -/
structure Conn where
  /-- `cells->vertex_ids` -/
  cellVerts : Nat → Nat → Int
  /-- `cells->face_ids` -/
  cellFaces : Nat → Nat → Int
  /-- `vertices->num_internal_cells` -/
  vNum : Nat → Nat
  /-- `vertices->internal_cell_ids` -/
  vCells : Nat → Nat → Int
  /-- `vertices->subcell_ids` -/
  vSub : Nat → Nat → Int
  /-- `faces->num_cells` -/
  fNum : Nat → Nat
  /-- `faces->cell_ids` -/
  fCells : Nat → Nat → Int
  /-- `c2v_count` -/
  c2v : Nat
  /-- `c2f_count` -/
  c2f : Nat

/-- The tables as allocated: ids -1, counts 0 (tdymesh.c:151-317). -/
def conn0 : Conn :=
  ⟨fun _ _ => -1, fun _ _ => -1, fun _ => 0, fun _ _ => -1, fun _ _ => -1, fun _ => 0,
    fun _ _ => -1, 0, 0⟩

/-- The search loops `for (j=0; j<cap; j++) if (free(a[j])) { ...; break; }`
(tdymeshplex.c:3223-3231, 3255-3261). -/
def firstFree (cap : Nat) (free : Int → Bool) (a : Nat → Int) : Option Nat :=
  (List.range cap).find? (fun j => free (a j))

/-- A vertex in the closure of cell `c` (tdymeshplex.c:3213-3237): `cap` is `max_vertex_cells`. -/
def addVertex (cap c v : Nat) (s : Conn) : Res Conn :=
  match firstFree cap (fun x => decide (x = -1)) (s.vCells v) with
  | none => .err { s with cellVerts := wr2 s.cellVerts c s.c2v v }
  | some j =>
    .ok { s with
      cellVerts := wr2 s.cellVerts c s.c2v v
      vNum := wr s.vNum v (s.vNum v + 1)
      vCells := wr2 s.vCells v j c
      vSub := wr2 s.vSub v j s.c2v
      c2v := s.c2v + 1 }

/-- A face in the closure of cell `c` (tdymeshplex.c:3251-3265): a third cell is dropped without a
word. -/
def addFace (c f : Nat) (s : Conn) : Conn :=
  match firstFree 2 (fun x => decide (x < 0)) (s.fCells f) with
  | none => { s with cellFaces := wr2 s.cellFaces c s.c2f f, c2f := s.c2f + 1 }
  | some j =>
    { s with
      cellFaces := wr2 s.cellFaces c s.c2f f
      fNum := wr s.fNum f (s.fNum f + 1)
      fCells := wr2 s.fCells f j c
      c2f := s.c2f + 1 }

/-- One point of the closure of cell `c` (tdymeshplex.c:3211-3267). -/
def addPoint (cap c : Nat) (s : Conn) : Point → Res Conn
  | .vertex v => addVertex cap c v s
  | .edge _ => .ok s
  | .face f => .ok (addFace c f s)
  | .cell _ => .ok s

/-- The loop over the closure of cell `c` (tdymeshplex.c:3204-3268). -/
def connectCell (cap : Nat) (m : Plex) (c : Nat) (s : Conn) : Res Conn :=
  (m.closure c).foldl (fun r p => r.bind (fun s => addPoint cap c s p))
    (.ok { s with c2v := 0, c2f := 0 })

/-- The loop over cells (tdymeshplex.c:3202-3269). -/
def connectCells (cap : Nat) (m : Plex) : Res Conn :=
  forN m.nCells (fun c r => r.bind (connectCell cap m c)) (.ok conn0)

/-! ## Faces and their vertices -/

/-- The tables written by the loop over faces (tdymeshplex.c:3302-3408). -/
structure FConn where
  /-- `faces->num_vertices` -/
  fNumVerts : Nat → Nat
  /-- `faces->vertex_ids` -/
  fVerts : Nat → Nat → Int
  /-- `vertices->num_faces` -/
  vNumFaces : Nat → Nat
  /-- `vertices->face_ids` -/
  vFaces : Nat → Nat → Int
  /-- `vertices->subface_ids` -/
  vSubfaces : Nat → Nat → Int
  /-- `faces->is_internal` -/
  internal : Nat → Bool
  /-- `vertices->num_boundary_faces` -/
  vNumB : Nat → Nat
  /-- `vertices->boundary_face_ids` -/
  vB : Nat → Nat → Int

/-- As allocated (tdymesh.c:151-317). -/
def fconn0 : FConn :=
  ⟨fun _ => 0, fun _ _ => -1, fun _ => 0, fun _ _ => 0, fun _ _ => -1, fun _ => false, fun _ => 0,
    fun _ _ => -1⟩

/-- One vertex of face `f` (tdymeshplex.c:3320-3341). -/
def addFaceVertex (f : Nat) (s : FConn) (v : Nat) : FConn :=
  let found := (List.range (s.vNumFaces v)).any (fun i => decide (s.vFaces v i = (f : Int)))
  let n := s.fNumVerts f
  { s with
    fVerts := wr2 s.fVerts f n v
    fNumVerts := wr s.fNumVerts f (n + 1)
    vFaces := if found then s.vFaces else wr2 s.vFaces v (s.vNumFaces v) f
    vSubfaces := if found then s.vSubfaces else wr2 s.vSubfaces v (s.vNumFaces v) n
    vNumFaces := if found then s.vNumFaces else wr s.vNumFaces v (s.vNumFaces v + 1) }

/-- One vertex of a boundary face (tdymeshplex.c:3399-3406). -/
def addBoundary (f : Nat) (s : FConn) (k : Nat) : FConn :=
  let v := (s.fVerts f k).toNat
  { s with
    vB := wr2 s.vB v (s.vNumB v) f
    vNumB := wr s.vNumB v (s.vNumB v + 1) }

/-- One face (tdymeshplex.c:3302-3408).  Not modelled: the list of edges of the face, and lines
3376-3392, which add the face to a cell that does not list it (the closures of the cells have
already put it there). -/
def connectFace (m : Plex) (f : Nat) (s : FConn) : FConn :=
  let s := (m.faceVerts f).foldl (addFaceVertex f) s
  let s := { s with internal := wr s.internal f (decide (m.supportSize f = 2)) }
  if s.internal f then s else forN (s.fNumVerts f) (fun k s => addBoundary f s k) s

/-- The loop over faces. -/
def connectFaces (m : Plex) : FConn := forN m.nFaces (connectFace m) fconn0

/-! ## Local entities -/

/-- IdentifyLocalVertices (tdymeshplex.c:315-339). -/
def vertexLocal (s : Conn) (cellLocal : Nat → Bool) (v : Nat) : Bool :=
  forN (s.vNum v)
    (fun c b => if 0 ≤ s.vCells v c ∧ cellLocal (s.vCells v c).toNat = true then true else b) false

/-- The state of IdentifyLocalFaces. -/
structure LocalFaces where
  fCells : Nat → Nat → Int
  isLocal : Nat → Bool
  numBoundary : Nat

/-- One face of IdentifyLocalFaces (tdymeshplex.c:407-440).
Simplification: an id that is negative where the C code indexes `is_local` with it (an internal face
with fewer than two cells) reads entry 0 here; the theorems exclude it. -/
def localFaceStep (internal cellLocal : Nat → Bool) (f : Nat) (s : LocalFaces) : LocalFaces :=
  if internal f = false then
    let n := s.numBoundary + 1
    if 0 ≤ s.fCells f 0 then
      { fCells := wr2 s.fCells f 1 (-(n : Int))
        isLocal := if cellLocal (s.fCells f 0).toNat = true then wr s.isLocal f true else s.isLocal
        numBoundary := n }
    else
      { fCells := wr2 s.fCells f 0 (-(n : Int))
        isLocal := if 0 ≤ s.fCells f 1 ∧ cellLocal (s.fCells f 1).toNat = true
          then wr s.isLocal f true else s.isLocal
        numBoundary := n }
  else
    { s with
      isLocal := if cellLocal (s.fCells f 0).toNat = true ∨ cellLocal (s.fCells f 1).toNat = true
        then wr s.isLocal f true else s.isLocal }

/-- IdentifyLocalFaces (tdymeshplex.c:395-443). -/
def localFaces (n : Nat) (internal cellLocal : Nat → Bool) (fCells : Nat → Nat → Int) : LocalFaces :=
  forN n (localFaceStep internal cellLocal) ⟨fCells, fun _ => false, 0⟩

/-! ## Order of the faces around a vertex -/

/-- The two scratch arrays and the counter of UpdateFaceOrderAroundAVertex. -/
structure SortState where
  faces : Nat → Int
  subs : Nat → Int
  count : Nat

/-- One of its two selection loops (tdymeshplex.c:1294-1302 with `want = 2`, 1306-1314 with
`want = 1`). -/
def selectFaces (numCells : Int → Nat) (want n : Nat) (faces subs : Nat → Int) (s : SortState) :
    SortState :=
  forN n (fun i s =>
    if numCells (faces i) = want then
      { faces := wr s.faces s.count (faces i)
        subs := wr s.subs s.count (subs i)
        count := s.count + 1 }
    else s) s

/-- UpdateFaceOrderAroundAVertex for one vertex (tdymeshplex.c:1277-1320): `n` faces with their
subfaces.  The scratch arrays are not initialised in C; their content is a parameter. -/
def reorderFaces (numCells : Int → Nat) (n : Nat) (faces subs : Nat → Int) (junk junk' : Nat → Int) :
    (Nat → Int) × (Nat → Int) :=
  let s := selectFaces numCells 2 n faces subs ⟨junk, junk', 0⟩
  let s := selectFaces numCells 1 n faces subs s
  (forN n (fun i a => wr a i (s.faces i)) faces, forN n (fun i a => wr a i (s.subs i)) subs)

end TDy.Mesh
