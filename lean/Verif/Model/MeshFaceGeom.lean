import Verif.Model.Geometry

/-!
# Distances, projected areas and centroids of faces

Models `src/fv/share/tdymeshplex.c` lines 3519-3677 (`ComputeGeoAttrOfFaces`) and
`src/fv/share/tdymeshcustom.c` lines 961-1216 (`ComputeTriArea`, `ComputeTriAreasAndIntercpet`,
`ComputeGeoAttrOfInternalFaces`, `ComputeGeoAttrOfUGridFaces`).  `PetscPowReal(x, 0.5)` is the square
root.
-/

namespace TDy.FaceGeom

open TDy.Geo

/-- What is computed for a face: `dist_up_dn[0]`, `dist_up_dn[1]`, `unit_vec_up_dn`, `dist_wt_up` and
`projected_area`. -/
structure Attr where
  distUp : ℝ
  distDn : ℝ
  unit : P3
  wtUp : ℝ
  proj : ℝ

/-- The mean of two points (tdymeshplex.c 3610-3612, tdymeshcustom.c 1100). -/
noncomputable def mid (p q : P3) : P3 := ⟨(p.x + q.x) / 2.0, (p.y + q.y) / 2.0, (p.z + q.z) / 2.0⟩

/-- tdymeshplex.c 3615-3637, 3659-3662; tdymeshcustom.c 1112-1135: distances, direction and weight
from the intercept `q` of the line from `up` to `dn`. -/
noncomputable def innerAttr (up dn q : P3) : ℝ × ℝ × P3 × ℝ :=
  let v1 := join up q
  let v2 := join q dn
  let v3 : P3 := ⟨v1.x + v2.x, v1.y + v2.y, v1.z + v2.z⟩
  let du := Real.sqrt (dot v1 v1)
  let dd := Real.sqrt (dot v2 v2)
  let d3 := Real.sqrt (dot v3 v3)
  (du, dd, ⟨v3.x / d3, v3.y / d3, v3.z / d3⟩, du / (du + dd))

/-- tdymeshplex.c 3588-3613: the intercept of the line between the centres of two cells with a face;
for a quadrilateral the mean of those with the planes of its first and of its last three vertices. -/
noncomputable def plexIntercept (x : Nat → P3) (up dn : P3) : List Nat → Option P3
  | [a, b, c] => some (planeIntercept (planeOf (x a) (x b) (x c)) up dn)
  | [a, b, c, d] =>
    some (mid (planeIntercept (planeOf (x a) (x b) (x c)) up dn)
      (planeIntercept (planeOf (x b) (x c) (x d)) up dn))
  | _ => none

/-- tdymeshplex.c 3594-3599: the projection of the centre of the cell onto the plane of the first
three vertices of a boundary face. -/
noncomputable def plexProjection (x : Nat → P3) (p : P3) : List Nat → Option P3
  | [a, b, c] => some (projectOnPlane (planeOf (x a) (x b) (x c)) p)
  | [a, b, c, _] => some (projectOnPlane (planeOf (x a) (x b) (x c)) p)
  | _ => none

/-- One face of `ComputeGeoAttrOfFaces`, tdymeshplex.c 3534-3672: vertex coordinates `x`, cell
centroids `cen`, face centroid `fc`, normal `n` and area.  `none` is the error for a face without
cells or with other than three or four vertices.  The branch of `use_pflotran_approach = 0` is never
taken. -/
noncomputable def faceAttr (x cen : Nat → P3) (fc n : P3) (area : ℝ) (verts : List Nat)
    (cells : ℤ × ℤ) : Option Attr :=
  if cells.1 < 0 ∧ cells.2 < 0 then none
  else
    let up := if 0 ≤ cells.1 then cen cells.1.toNat else fc
    let dn := if 0 ≤ cells.2 then cen cells.2.toNat else fc
    if 0 ≤ cells.1 ∧ 0 ≤ cells.2 then
      (plexIntercept x up dn verts).map fun q =>
        let (du, dd, u, w) := innerAttr up dn q
        ⟨du, dd, u, w, area * dot u n⟩
    else
      (plexProjection x (if 0 ≤ cells.1 then up else dn) verts).map fun q =>
        let v2 := join q dn
        let dd := Real.sqrt (dot v2 v2)
        let u : P3 := ⟨v2.x / dd, v2.y / dd, v2.z / dd⟩
        ⟨0.0, dd, u, 0.0 / (0.0 + dd), area * dot u n⟩

/-! ## Meshes of the library itself -/

/-- `ComputeTriArea`, tdymeshcustom.c 961-984. -/
noncomputable def triArea (p1 p2 p3 : P3) : ℝ :=
  let c := cross (join p2 p3) (join p2 p1)
  0.5 * Real.sqrt (dot c c)

/-- `ComputeTriAreasAndIntercpet`, tdymeshcustom.c 1003-1037: area, projected area, intercept. -/
noncomputable def triAttr (p1 p2 p3 up dn n : P3) : ℝ × ℝ × P3 :=
  let c := cross (join p2 p3) (join p2 p1)
  let m := Real.sqrt (dot c c)
  let n1 : P3 := ⟨c.x / m, c.y / m, c.z / m⟩
  let area := 0.5 * m
  (area, |area * dot n1 n|, planeIntercept (planeOf p1 p2 p3) up dn)

/-- One face of `ComputeGeoAttrOfInternalFaces`, tdymeshcustom.c 1064-1137: the area of the face and
the rest; `none` stands for a face with other than three or four vertices. -/
noncomputable def innerFace (x : Nat → P3) (up dn : P3) (verts : List Nat) : Option (ℝ × Attr) :=
  let v := join up dn
  let r := Real.sqrt (dot v v)
  let n : P3 := ⟨v.x / r, v.y / r, v.z / r⟩
  match verts with
  | [a, b, c] =>
    let (a1, pr1, q) := triAttr (x a) (x b) (x c) up dn n
    let (du, dd, u, w) := innerAttr up dn q
    some (a1 + 0.0, ⟨du, dd, u, w, pr1 + 0.0⟩)
  | [a, b, c, d] =>
    let (a1, pr1, q1) := triAttr (x a) (x b) (x c) up dn n
    let (a2, pr2, q2) := triAttr (x a) (x d) (x c) up dn n
    let (du, dd, u, w) := innerAttr up dn (mid q1 q2)
    some (a1 + a2, ⟨du, dd, u, w, pr1 + pr2⟩)
  | _ => none

/-- tdymeshcustom.c 1180-1196: the area of a face. -/
noncomputable def ugridArea (x : Nat → P3) : List Nat → Option ℝ
  | [a, b, c] => some (triArea (x a) (x b) (x c) + 0.0)
  | [a, b, c, d] => some (triArea (x a) (x b) (x c) + triArea (x a) (x d) (x c))
  | _ => none

/-- tdymeshcustom.c 1198-1211: the centroid of a face, from the vertex numbers that are not
negative. -/
noncomputable def ugridCentroid (x : Nat → P3) (verts : List ℤ) : P3 :=
  let l := (verts.filter fun v => decide (0 ≤ v)).map fun v => x v.toNat
  let s := l.foldl (fun (s p : P3) => ⟨s.x + p.x, s.y + p.y, s.z + p.z⟩) ⟨0.0, 0.0, 0.0⟩
  ⟨s.x / l.length, s.y / l.length, s.z / l.length⟩

end TDy.FaceGeom
