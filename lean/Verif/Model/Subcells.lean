import Verif.Basic
import Verif.Model.MpfaoTrans
import Verif.Model.MpfaoVelocity

/-!
# The tables of the subcells and what is read from them

Models src/fv/share/tdymeshplex.c 34-93 (readers), 155-196 (`FindNeighboringVerticesOfAFace`), 236-275
(`FindFaceIDsOfACellCommonToAVertex`), 445-469 (`TDyFindSubcellOfACellThatIncludesAVertex`), 2829-3034
(the loop of `SetupSubcells`), with src/fv/share/tdymesh.c 85-140 (`AllocateSubcells`) and 1336-1539 (the
accessors it writes through).  Floating point numbers are real numbers.
-/

namespace TDy.Subcells

open TDy

/-- What the loop reads.  `vFace`: faces of a vertex; `up`, `dn`: cells of a face (negative outside);
`fVert`: vertices of a face in order. -/
structure Mesh where
  numCells : Nat
  nSub : Nat
  cellVertex : Nat → Nat → Nat
  cellCen : Nat → Geo.P3
  coord : Nat → Geo.P3
  nFaces : Nat → Nat
  vFace : Nat → Nat → Nat
  up : Nat → ℤ
  dn : Nat → ℤ
  nVerts : Nat → Nat
  fVert : Nat → Nat → Nat
  fCen : Nat → Geo.P3
  area : Nat → ℝ

/-! ### Searches -/

/-- Variables of the loop of `FindFaceIDsOfACellCommonToAVertex`; `stop` is the `break`. -/
structure Shared where
  num : Nat
  idx : Nat → Nat
  stop : Bool

/-- tdymeshplex.c 249-266: one face of the vertex. -/
def sharedStep (m : Mesh) (cell v i : Nat) (s : Shared) : Shared :=
  if s.stop then s
  else if m.up (m.vFace v i) = cell ∨ m.dn (m.vFace v i) = cell then
    if s.num = 3 then { s with num := s.num + 1, stop := true }
    else { s with num := s.num + 1, idx := wr s.idx s.num (m.vFace v i) }
  else s

/-- tdymeshplex.c 236-275, `FindFaceIDsOfACellCommonToAVertex`: `num_shared_faces` and `f_idx`, whose
first contents are not defined (0 here).  The function returns an error code unless the number is
three. -/
def sharedFaces (m : Mesh) (cell v : Nat) : Shared :=
  forN (m.nFaces v) (sharedStep m cell v) ⟨0, fun _ => 0, false⟩

/-- tdymeshplex.c 164-187: the vertices of face `f`, from number `start` on, then those before it. -/
def rotated (m : Mesh) (f start : Nat) : Nat → Nat :=
  forN start (fun k a => wr a (m.nVerts f - start + k) (m.fVert f k))
    (forN (m.nVerts f - start) (fun k a => wr a k (m.fVert f (start + k))) (fun _ => 0))

/-- tdymeshplex.c 155-196, `FindNeighboringVerticesOfAFace`: `none` is the error.  Simplified: a face
with a single vertex (the second entry of an array of length one is read) gives 0. -/
def neighbours (m : Mesh) (f v : Nat) : Option (Nat × Nat) :=
  ((List.range (m.nVerts f)).find? (fun k => m.fVert f k == v)).map fun start =>
    (rotated m f start 1, rotated m f start (m.nVerts f - 1))

/-! ### The tables -/

/-- The tables of `TDySubcell` that are modelled; entry `3*subcell + i` belongs to face `i`
(tdymesh.c 131-137: all offsets are three times the subcell). -/
structure Tables where
  faceIds : Nat → ℤ
  vertexIds : Nat → ℤ
  faceArea : Nat → ℝ
  nu : Nat → Geo.P3
  /-- `variable_continuity_coordinates` -/
  contin : Nat → Geo.P3
  /-- `face_centroid` -/
  faceCen : Nat → Geo.P3
  T : Nat → ℝ

/-- tdymesh.c 97-122, `AllocateSubcells`: integers are -1, the rest is zero. -/
def allocated : Tables where
  faceIds := fun _ => -1
  vertexIds := fun _ => -1
  faceArea := fun _ => 0
  nu := fun _ => ⟨0, 0, 0⟩
  contin := fun _ => ⟨0, 0, 0⟩
  faceCen := fun _ => ⟨0, 0, 0⟩
  T := fun _ => 0

noncomputable section

/-- Entry `d` of `f_idx`. -/
def nth (f : Fin 3 → Nat) (d : Nat) : Nat := if d = 0 then f 0 else if d = 1 then f 1 else f 2

/-- tdymeshplex.c 2952-2978: face `d` as a case of the switch. -/
def fin (d : Nat) : Fin 3 := if d = 0 then 0 else if d = 1 then 1 else 2

/-- tdymeshplex.c 2931-2935, one coordinate: the mean of the vertex, the middles of the two edges and the
centroid of the face. -/
def mean (v n0 fc n1 : ℝ) : ℝ := (v + (v + n0)/2.0 + fc + (v + n1)/2.0)/4.0

/-- tdymeshplex.c 2931-2935. -/
def subfaceCen (m : Mesh) (v f : Nat) (n : Nat × Nat) : Geo.P3 :=
  ⟨mean (m.coord v).x (m.coord n.1).x (m.fCen f).x (m.coord n.2).x,
   mean (m.coord v).y (m.coord n.1).y (m.fCen f).y (m.coord n.2).y,
   mean (m.coord v).z (m.coord n.1).z (m.fCen f).z (m.coord n.2).z⟩

/-- tdymesh.c 1531-1539, `TDyMeshGetSubcellFaceCentroids`: a pointer into the table it points to is an
index and a choice of table; this one hands out `variable_continuity_coordinates`.  Here: write `x` to
entry `i` of what it hands out for subcell `id`. -/
def writeFaceCentroid (t : Tables) (id i : Nat) (x : Geo.P3) : Tables :=
  { t with contin := wr t.contin (3*id + i) x }

/-- The order of the faces of subcell `s` of cell `c`: tdymeshplex.c 2882-2888. -/
def order (m : Mesh) (c s : Nat) : Fin 3 → Nat :=
  Mpfao.orientFaces m.fCen (m.cellCen c) (m.coord (m.cellVertex c s))
    (fun d => (sharedFaces m c (m.cellVertex c s)).idx d)

/-- tdymeshplex.c 2889-2892. -/
def writeIds (m : Mesh) (c s d : Nat) (t : Tables) : Tables :=
  { t with
    faceIds := wr t.faceIds (3*(c*m.nSub + s) + d) (nth (order m c s) d)
    vertexIds := wr t.vertexIds (3*(c*m.nSub + s) + d) (m.cellVertex c s) }

/-- tdymeshplex.c 2904-2993: face `i` of the subcell.  An error code of the search for neighbours is
ignored and what it did not set is read.  Simplified: `nu_star` is left out (see `Verif.Model.MpfaoTpf`). -/
def writeFace (m : Mesh) (c s i : Nat) (t : Tables) : Res Tables :=
  let id := c*m.nSub + s
  let f := nth (order m c s) i
  match neighbours m f (m.cellVertex c s) with
  | none => .ub
  | some n =>
    let t := writeFaceCentroid t id i (subfaceCen m (m.cellVertex c s) f n)
    .ok { t with
      faceArea := wr t.faceArea (3*id + i) (m.area f/(m.nVerts f : ℝ))
      nu := wr t.nu (3*id + i) (Mpfao.nuVector m.fCen (m.cellCen c) (order m c s) (fin i)) }

/-- tdymeshplex.c 2863-3031: one subcell.  The error code of the search for faces is ignored: with fewer
than three faces `f_idx` is read where it was not set, with more `face_cen` is written past its end. -/
def setupSubcell (m : Mesh) (c s : Nat) (t : Tables) : Res Tables :=
  if (sharedFaces m c (m.cellVertex c s)).num ≠ 3 then .ub
  else
    let t := forN 3 (fun d t => writeIds m c s d t) t
    let volume := Mpfao.subcellT m.fCen (m.cellCen c) (order m c s)
    let t := { t with T := wr t.T (c*m.nSub + s) volume }
    forN 3 (fun i r => r.bind (writeFace m c s i)) (.ok t)

/-- tdymeshplex.c 2852-3033: all subcells. -/
def setup (m : Mesh) : Res Tables :=
  forN m.numCells (fun c r => forN m.nSub (fun s r => r.bind (setupSubcell m c s)) r) (.ok allocated)

/-! ### Readers -/

/-- tdymeshplex.c 34-45, `TDySubCell_GetIthNuVector`. -/
def ithNu (t : Tables) (id i : Nat) : Option Geo.P3 := if i ≥ 3 then none else some (t.nu (3*id + i))

/-- tdymeshplex.c 62-73, `TDySubCell_GetIthFaceCentroid`. -/
def ithFaceCentroid (t : Tables) (id i : Nat) : Option Geo.P3 :=
  if i ≥ 3 then none else some (t.faceCen (3*id + i))

/-- tdymeshplex.c 76-93, `TDySubCell_GetFaceIndexForAFace`. -/
def faceIndex (t : Tables) (id f : Nat) : Option Nat :=
  (List.range 3).find? (fun i => t.faceIds (3*id + i) == f)

/-- tdymeshplex.c 445-469, `TDyFindSubcellOfACellThatIncludesAVertex`: `cells` are the cells of the vertex
with the number of the vertex in each. -/
def findSubcell (m : Mesh) (cells : List (Nat × Nat)) (cell : Nat) : Option Nat :=
  (cells.find? (fun p => p.1 == cell)).map fun p => cell*m.nSub + p.2

/-! ### Comparison with the velocity function -/

/-- tdympfao_utils.c 183-202, 359-388 and so on: the value that a velocity of face `f` at vertex `v` is
compared with, on the side of cell `c`: the function `V` at the centroid of the subface, times the normal,
times the area of the subface.  Errors of the searches give 0. -/
def velRef (m : Mesh) (t : Tables) (cells : Nat → List (Nat × Nat)) (normal : Nat → Geo.P3)
    (V : Geo.P3 → Geo.P3) (v : Nat) (c : ℤ) (f : Nat) : ℝ :=
  match findSubcell m (cells v) c.toNat with
  | none => 0
  | some id =>
    match faceIndex t id f with
    | none => 0
    | some i =>
      match ithFaceCentroid t id i with
      | none => 0
      | some X => Geo.dot (V X) (normal f) * t.faceArea (3*id + i)

end

end TDy.Subcells
