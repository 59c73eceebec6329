import Verif.Basic
import Verif.Loop
import Verif.Model.Topology
import Verif.Model.MeshConn

/-!
# Faces of an imported mesh (src/fv/share/tdymeshcustom.c:476-950, 1231-1286)

The mesh of one rank: `ng` cells of which the first `nl` are owned; cell `i` has `nv i` vertices `cv i` and `nnb i`
neighbours `nb i`, negative for ghosts (C66 shows how they get there).  Two-dimensional arrays are indexed as in C.
TDyAllocate_IntegerArray_2D (src/tdymemory.c:129-141) fills its rows with -1; it asks for `sizeof` times too many
elements, zeroed, so the row pointers just past the last row are null.  `ng` is `num_cells_global`.  Simplified:
`ugrid->face_to_vertex_natural` is left out, cells have one of the four known types (GetFaceVertices reports others),
face ids used as an index are not negative (`toNat`), and vertex numbers are below `num_verts_local`.
-/

namespace TDy.Custom

open TDy.Topology TDy.Mesh

/-- The local mesh of a rank (`TDyUGrid`, include/private/tdyugridimpl.h). -/
structure UG where
  ng : Nat
  nl : Nat
  nv : Nat → Nat
  cv : Nat → Nat → Int
  nnb : Nat → Nat
  nb : Nat → Nat → Int

/-- `GetCellType(ugrid->cell_num_vertices[i])`. -/
def UG.ct (u : UG) (i : Nat) : Int := getCellType (u.nv i)

/-- `GetNumFacesForCellType` of cell `i`. -/
def UG.nf (u : UG) (i : Nat) : Nat := (numFaces (u.ct i)).toNat

/-- `GetNumOfVerticesOfIthFacesForCellType` of face `k` of cell `i`. -/
def UG.nvf (u : UG) (i k : Nat) : Nat := (faceVertices (u.ct i) k).toNat

/-- The cell-relative corners that GetFaceVertices stores for face `k` of cell `i`. -/
def UG.corners (u : UG) (i k : Nat) : List Nat := (getFaceVertices (u.ct i) k).getD []

/-- `max_face_per_cell` (tdyugrid.c:51). -/
def maxFaces : Nat := 6

/-- `max_vert_per_face` (tdyugrid.c:50). -/
def maxVerts : Nat := 4

/-- `cell_to_face[iface][icell]`, `face_to_cell[side][face]`, `face_to_vertex[ivertex][face]` and the counter. -/
structure Maps where
  c2f : Nat → Nat → Int
  f2c : Nat → Nat → Int
  f2v : Nat → Nat → Int
  count : Nat

/-- tdymeshcustom.c:593-611: one face of one cell. -/
def setupFace (u : UG) (i k : Nat) (m : Maps) : Maps :=
  { c2f := wr2 m.c2f k i m.count
    f2c := wr2 m.f2c 0 m.count i
    f2v := forN (u.nvf i k) (fun v a => wr2 a v m.count (u.cv i ((u.corners i k).getD v 0))) m.f2v
    count := m.count + 1 }

/-- SetupMaps_C2F_F2C_F2V (tdymeshcustom.c:578-617). -/
def setupMaps (u : UG) : Maps :=
  forN u.ng (fun i m => forN (u.nf i) (fun k m => setupFace u i k m) m)
    ⟨fun _ _ => -1, fun _ _ => -1, fun _ _ => -1, 0⟩

/-- AreAllVerticesPresentInDual (tdymeshcustom.c:476-507): the flag and whether the loop was left. -/
def allPresent (u : UG) (m : Maps) (i i2 k : Nat) : Bool :=
  (forN (u.nvf i k) (fun v s => if s.2 then s else
    let found := (List.range (u.nv i2)).any (fun w => m.f2v v (m.c2f k i).toNat == u.cv i2 w)
    (found, !found)) (false, false)).1

/-- tdymeshcustom.c:541-558: the number of matches when the loop over the vertices of face `k` ends. -/
def matches_ (u : UG) (m : Maps) (i i2 k k2 : Nat) : Nat :=
  (forN (u.nvf i k) (fun v s => if s.2 then s else
    if (List.range (u.nvf i2 k2)).any (fun w => m.f2v v (m.c2f k i).toNat == m.f2v w (m.c2f k2 i2).toNat)
    then (s.1 + 1, false) else (s.1, true)) (0, false)).1

/-- GetCorrespondingFaceInDualCell (tdymeshcustom.c:519-568); `none` is -1. -/
def dualFace (u : UG) (m : Maps) (i i2 k : Nat) : Option Nat :=
  (List.range (u.nf i2)).find? (fun k2 => u.nvf i k == u.nvf i2 k2 && matches_ u m i i2 k k2 == u.nvf i k)

/-- tdymeshcustom.c:653-680: the first face of cell `i` with a counterpart in cell `i2`. -/
def commonFace (u : UG) (m : Maps) (i i2 : Nat) : Option (Nat × Nat) :=
  (List.range (u.nf i)).findSome? (fun k =>
    if allPresent u m i i2 k then (dualFace u m i i2 k).map (fun k2 => (k, k2)) else none)

/-- tdymeshcustom.c:665-675: both faces get the smaller of the two ids. -/
def mergeFaces (m : Maps) (i i2 k k2 : Nat) : Maps :=
  let f := (m.c2f k i).toNat
  let f2 := (m.c2f k2 i2).toNat
  if m.c2f k2 i2 > m.c2f k i then
    { m with
      c2f := wr2 m.c2f k2 i2 (m.c2f k i)
      f2c := wr2 (wr2 m.f2c 0 f2 (-(m.f2c 0 f2))) 1 f i2 }
  else
    { m with
      c2f := wr2 m.c2f k i (m.c2f k2 i2)
      f2c := wr2 (wr2 m.f2c 0 f (-(m.f2c 0 f))) 1 f2 i }

/-- tdymeshcustom.c:641-684: one neighbour of one cell. -/
def removeStep (u : UG) (i d : Nat) (m : Maps) : Res Maps :=
  let i2 := (u.nb i d).natAbs
  if i2 ≤ i then .ok m
  else match commonFace u m i i2 with
    | some (k, k2) => .ok (mergeFaces m i i2 k k2)
    | none => .err m

/-- RemoveDuplicateFaces (tdymeshcustom.c:628-688). -/
def removeDuplicates (u : UG) (m : Maps) : Res Maps :=
  forN u.nl (fun i r => forN (u.nnb i) (fun d r => r.bind (removeStep u i d)) r) (.ok m)

/-- A face that was not removed (tdymeshcustom.c:708, 718, 734). -/
def kept (m : Maps) (f : Nat) : Bool := decide (0 ≤ m.f2c 0 f)

/-- What UpdateMapsC2F_F2C_F2V leaves: `ugrid->num_faces`, `ugrid->face_to_vertex`, the new face-to-cell map (which only
the function itself sees) and `tmp_int`. -/
structure Faces where
  num : Nat
  f2v : Nat → Nat → Int
  f2c : Nat → Nat → Int
  tmp : Nat → Int

/-- tdymeshcustom.c:705-751, three loops in one: count the faces that stay and compact the maps. -/
def compact (u : UG) (m : Maps) : Faces :=
  forN (maxFaces*u.ng) (fun f s => if kept m f then
    { num := s.num + 1
      f2v := forN maxVerts (fun v a => wr2 a v s.num (m.f2v v f)) s.f2v
      f2c := forN 2 (fun e a => wr2 a e s.num (m.f2c e f)) s.f2c
      tmp := wr s.tmp f s.num } else s)
    ⟨0, fun _ _ => -1, fun _ _ => -1, fun _ => -1⟩

/-- tdymeshcustom.c:767-777: the entry of cell `c` that refers to new face `f`. -/
def findEntry (u : UG) (tmp : Nat → Int) (c2f : Nat → Nat → Int) (c f : Nat) : Option Nat :=
  (List.range (u.nf c)).find? (fun k => decide (0 ≤ c2f k c) && ((f : Int) == tmp (c2f k c).toNat))

/-- tdymeshcustom.c:758-780: one side of one new face. -/
def remapStep (u : UG) (fs : Faces) (f e : Nat) (c2f : Nat → Nat → Int) : Res (Nat → Nat → Int) :=
  if fs.f2c e f < 0 then .ok c2f
  else match findEntry u fs.tmp c2f (fs.f2c e f).toNat f with
    | some k => .ok (wr2 c2f k (fs.f2c e f).toNat f)
    | none => .err c2f

/-- tdymeshcustom.c:754-782 -/
def remap (u : UG) (fs : Faces) (c2f : Nat → Nat → Int) : Res (Nat → Nat → Int) :=
  forN fs.num (fun f r => forN 2 (fun e r => r.bind (remapStep u fs f e)) r) (.ok c2f)

/-! ## Vertices to cells -/

/-- `num_vertex_to_cell[vertex]`, `vertex_to_cell[idx][vertex]`. -/
structure V2C where
  num : Nat → Nat
  tab : Nat → Nat → Int

/-- tdymeshcustom.c:810-820: one vertex of one cell.  The table has `cap` rows; the row pointers beyond are null
(TDyAlloc zeroes), so that storing there is undefined.  The check at the end reads the count of the vertex whose
number is the position in the cell. -/
def v2cStep (cap : Nat) (u : UG) (i k : Nat) (s : V2C) : Res V2C :=
  if u.cv i k < 0 then .ok s
  else
    let v := (u.cv i k).toNat
    if s.num v < cap then
      let s' : V2C := ⟨wr s.num v (s.num v + 1), wr2 s.tab (s.num v) v i⟩
      if s'.num k > cap then .err s' else .ok s'
    else .ub

/-- SetupMap_V2C (tdymeshcustom.c:795-826). -/
def setupV2C (cap : Nat) (u : UG) : Res V2C :=
  forN u.ng (fun i r => forN (u.nv i) (fun k r => r.bind (v2cStep cap u i k)) r)
    (.ok ⟨fun _ => 0, fun _ _ => -1⟩)

/-! ## Internal faces -/

/-- The faces of the TDyMesh: cells on both sides, id, number of vertices, and `connection_to_face`. -/
structure Conns where
  num : Nat
  left : Nat → Int
  right : Nat → Int
  id : Nat → Int
  nverts : Nat → Int
  conn : Nat → Int

/-- tdymeshcustom.c:845-853: the number of internal faces that is allocated. -/
def countConns (u : UG) : Nat :=
  forN u.nl (fun i n => forN (u.nnb i) (fun d n =>
    if u.nb i d < 0 ∨ (i : Int) < u.nb i d then n + 1 else n) n) 0

/-- tdymeshcustom.c:885-896: the face of cell `i` that has cell `c` on a side. -/
def faceTowards (u : UG) (c2f f2c : Nat → Nat → Int) (i c : Nat) : Option Nat :=
  (List.range (u.nf i)).find? (fun k =>
    (List.range 2).any (fun e => f2c e (c2f k i).toNat == (c : Int)))

/-- tdymeshcustom.c:907-915: the face of cell `c` with that id.  The bound is the number of vertices of the cell, 8 for
a hexahedron, while `cell_to_face` has six rows: a search that gets past them reads a null row. -/
def sameFace (u : UG) (c2f : Nat → Nat → Int) (i k c : Nat) : Res (Option Nat) :=
  match (List.range (min (u.nv c) maxFaces)).find? (fun k2 => c2f k i == c2f k2 c) with
  | some k2 => .ok (some k2)
  | none => if maxFaces < u.nv c then .ub else .ok none

/-- tdymeshcustom.c:871-945: one neighbour of one cell. -/
def connStep (u : UG) (c2f f2c : Nat → Nat → Int) (i d : Nat) (s : Conns) : Res Conns :=
  let c := (u.nb i d).natAbs
  if i < c then
    match faceTowards u c2f f2c i c with
    | none => .err s
    | some k =>
      let s := { s with conn := wr s.conn s.num (c2f k i) }
      match sameFace u c2f i k c with
      | .ok (some k2) =>
        if faceType (u.ct i) k = faceType (u.ct c) k2 then
          .ok { num := s.num + 1
                left := wr s.left s.num i
                right := wr s.right s.num c
                id := wr s.id s.num (c2f k i)
                nverts := wr s.nverts s.num (faceTypeVertices (faceType (u.ct i) k))
                conn := s.conn }
        else .err s
      | .ub => .ub
      | _ => .err s
  else .ok s

/-- CreateInternalFaces (tdymeshcustom.c:836-950) on a face-to-cell map that is readable. -/
def createInternal (u : UG) (c2f f2c : Nat → Nat → Int) : Res Conns :=
  forN u.nl (fun i r => forN (u.nnb i) (fun d r => r.bind (connStep u c2f f2c i d)) r)
    (.ok ⟨0, fun _ => -1, fun _ => -1, fun _ => -1, fun _ => -1, fun _ => -1⟩)

/-- The first read of `face_to_cell` by CreateInternalFaces happens at the first neighbour of a cell with a larger
number (tdymeshcustom.c:874-888). -/
def readsFaceToCell (u : UG) : Bool :=
  (List.range u.nl).any (fun i => decide (0 < u.nf i) &&
    (List.range (u.nnb i)).any (fun d => decide (i < (u.nb i d).natAbs)))

/-- What TDySetupFacesFromDiscretization (tdymeshcustom.c:1231-1286) makes of a mesh, up to the internal faces.
UpdateMapsC2F_F2C_F2V frees the caller's `face_to_cell` (tdymeshcustom.c:744-745) and assigns the new one to its own
parameter; the caller hands the freed pointer to CreateInternalFaces (line 1276).  The codes of the first, third and
last of these calls are dropped (lines 1259, 1265, 1276). -/
def setupFaces (cap : Nat) (u : UG) : Res (Nat × (Nat → Nat → Int)) :=
  match removeDuplicates u (setupMaps u) with
  | .ub => .ub
  | .err m => .err (0, m.c2f)
  | .ok m =>
    let fs := compact u m
    match remap u fs m.c2f with
    | .ub => .ub
    | .ok c2f | .err c2f =>
      match setupV2C cap u with
      | .ub => .ub
      | .err _ => .err (fs.num, c2f)
      | .ok _ => if readsFaceToCell u then .ub else .ok (fs.num, c2f)

end TDy.Custom
