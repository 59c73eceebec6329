import Verif.Basic
import Verif.Loop
import Mathlib.Analysis.SpecialFunctions.Trigonometric.Arctan
import Mathlib.Data.Real.Sqrt

/-!
# Model of the geometry helpers (src/tdyutils.c, parts of src/fv/share/tdymeshcustom.c)

A `PetscReal[3]` is a `P3`; a `PetscReal[9]` is a function of the index.  Division by zero, which
gives infinities or NaN in C, gives 0 here: every theorem that divides assumes a nonzero divisor.
-/

namespace TDy.Geo

/-- `PetscReal v[3]` -/
@[ext]
structure P3 where
  x : ℝ
  y : ℝ
  z : ℝ

noncomputable section

/-- src/tdyutils.c:251-262, `TDyCrossProduct`. -/
def cross (a b : P3) : P3 :=
  ⟨a.y * b.z - a.z * b.y, a.z * b.x - a.x * b.z, a.x * b.y - a.y * b.x⟩

/-- src/tdyutils.c:264-276, `TDyDotProduct`. -/
def dot (a b : P3) : ℝ := 0 + a.x * b.x + a.y * b.y + a.z * b.z

/-- src/tdyutils.c:279-293, `Norm`. -/
def norm (a : P3) : ℝ := Real.sqrt (0 + a.x * a.x + a.y * a.y + a.z * a.z)

/-- src/tdyutils.c:296-309, `ConvertToUnitVector`. -/
def unit (a : P3) : P3 := ⟨a.x / norm a, a.y / norm a, a.z / norm a⟩

/-- src/tdyutils.c:312-322, `TDyCreateVecJoiningTwoVertices`. -/
def join (p q : P3) : P3 := ⟨q.x - p.x, q.y - p.y, q.z - p.z⟩

/-- src/tdyutils.c:325-345, `TDyTriangleArea`. -/
def triangleArea (p q r : P3) : ℝ := 0.5 * norm (cross (join p q) (join p r))

/-- src/tdyutils.c:352-354, 415-417: the mean of four points. -/
def mean4 (p q r s : P3) : P3 :=
  ⟨(p.x + q.x + r.x + s.x) / 4, (p.y + q.y + r.y + s.y) / 4, (p.z + q.z + r.z + s.z) / 4⟩

/-- src/tdyutils.c:348-367, `TDyQuadrilateralArea`. -/
def quadArea (p q r s : P3) : ℝ :=
  0 + triangleArea (mean4 p q r s) p q + triangleArea (mean4 p q r s) q r +
    triangleArea (mean4 p q r s) r s + triangleArea (mean4 p q r s) s p

/-- src/tdyutils.c:370-380, `TDyUnitNormalVectorJoiningTwoVertices`. -/
def unitJoin (p q : P3) : P3 := unit (join p q)

/-- src/tdyutils.c:383-396, `TDyNormalToTriangle`. -/
def normalTriangle (p q r : P3) : P3 := cross (join p q) (join p r)

/-- src/tdyutils.c:399-410, `TDyUnitNormalToTriangle`. -/
def unitNormalTriangle (p q r : P3) : P3 := unit (normalTriangle p q r)

/-- src/tdyutils.c:413-439, `TDyNormalToQuadrilateral`. -/
def normalQuad (p q r s : P3) : P3 :=
  mean4 (unitNormalTriangle (mean4 p q r s) p q) (unitNormalTriangle (mean4 p q r s) q r)
    (unitNormalTriangle (mean4 p q r s) r s) (unitNormalTriangle (mean4 p q r s) s p)

/-- src/tdyutils.c:442-463, `TDyComputeVolumeOfTetrahedron`. -/
def tetVolume (p q r s : P3) : ℝ := |dot (cross (join p q) (join p r)) (join p s)| / 6

/-- src/tdyutils.c:786-806, `VolumeofTetrahedron`. -/
def tetVolume2 (p1 p2 p3 p4 : P3) : ℝ :=
  |dot (join p4 p1) (cross (join p4 p2) (join p4 p3))| / 6

/-- src/fv/share/tdymeshcustom.c:61-68 -/
def hexTets : List (Nat × Nat × Nat × Nat) :=
  [(0, 1, 2, 5), (0, 5, 7, 4), (0, 5, 2, 7), (7, 5, 2, 6), (0, 2, 3, 7)]

/-- src/fv/share/tdymeshcustom.c:70-75 -/
def wedgeTets : List (Nat × Nat × Nat × Nat) := [(0, 1, 2, 3), (2, 3, 4, 5), (1, 2, 3, 4)]

/-- src/fv/share/tdymeshcustom.c:77-81 -/
def pyramidTets : List (Nat × Nat × Nat × Nat) := [(0, 1, 2, 4), (2, 3, 0, 4)]

/-- src/fv/share/tdymeshcustom.c:89-99: sum over tetrahedra. -/
def sumTets (v : Nat → P3) (l : List (Nat × Nat × Nat × Nat)) : ℝ :=
  l.foldl (fun vol t => vol + tetVolume2 (v t.1) (v t.2.1) (v t.2.2.1) (v t.2.2.2)) 0

/-- src/fv/share/tdymeshcustom.c:56-143, `ComputeVolume`; `none` is the error. -/
def cellVolume (v : Nat → P3) (n : Nat) : Option ℝ :=
  match n with
  | 8 => some (sumTets v hexTets)
  | 6 => some (sumTets v wedgeTets)
  | 5 => some (sumTets v pyramidTets)
  | 4 => some (0 + tetVolume2 (v 0) (v 1) (v 2) (v 3))
  | _ => none

/-- src/fv/share/tdymeshcustom.c:176-193: sum of the vertices over their number. -/
def cellCentroid (v : Nat → P3) (n : Nat) : P3 :=
  let s := forN n (fun i (s : P3) => ⟨s.x + (v i).x, s.y + (v i).y, s.z + (v i).z⟩) ⟨0, 0, 0⟩
  ⟨s.x / n, s.y / n, s.z / n⟩

/-- src/tdyutils.c:663-680, `ComputeTheta`. -/
def theta (x y : ℝ) : ℝ :=
  if x > 0 then
    if y ≥ 0 then Real.arctan (y / x) else Real.arctan (y / x) + 2 * Real.pi
  else if x = 0 then
    if y > 0 then 0.5 * Real.pi
    else if y = 0 then 0
    else 1.5 * Real.pi
  else Real.arctan (y / x) + Real.pi

/-- src/tdyutils.c:683-690, `ComputeDeterminantOf3by3Matrix`. -/
def det3 (a : Nat → ℝ) : ℝ :=
  a 0 * (a 4 * a 8 - a 5 * a 7) - a 1 * (a 3 * a 8 - a 5 * a 6) + a 2 * (a 3 * a 7 - a 4 * a 6)

/-- src/tdyutils.c:702-710: the entries written to `inv_a`. -/
def inv3 (a : Nat → ℝ) : Nat → ℝ
  | 0 => 1 / det3 a * (a 4 * a 8 - a 7 * a 5)
  | 1 => -1 / det3 a * (a 1 * a 8 - a 7 * a 2)
  | 2 => 1 / det3 a * (a 1 * a 5 - a 4 * a 2)
  | 3 => -1 / det3 a * (a 3 * a 8 - a 6 * a 5)
  | 4 => 1 / det3 a * (a 0 * a 8 - a 6 * a 2)
  | 5 => -1 / det3 a * (a 0 * a 5 - a 3 * a 2)
  | 6 => 1 / det3 a * (a 3 * a 7 - a 6 * a 4)
  | 7 => -1 / det3 a * (a 0 * a 7 - a 6 * a 1)
  | 8 => 1 / det3 a * (a 0 * a 4 - a 3 * a 1)
  | _ => 0

/-- PETSC_MACHINE_EPSILON for double precision. -/
def machineEps : ℝ := 2.22044604925031308e-16

/-- src/tdyutils.c:712-714: the clean-up loop works on the argument `a`, not on the result. -/
def inv3Cleanup (a : Nat → ℝ) : Nat → ℝ :=
  forN 9 (fun i a => if |a i| < machineEps then wr a i 0 else a) a

/-- src/tdyutils.c:694-717, `ComputeInverseOf3by3Matrix`: the result and the argument afterwards. -/
def computeInverse (a : Nat → ℝ) : (Nat → ℝ) × (Nat → ℝ) := (inv3 a, inv3Cleanup a)

/-- A plane `a x + b y + c z + d = 0`. -/
structure Plane where
  a : ℝ
  b : ℝ
  c : ℝ
  d : ℝ

/-- src/tdyutils.c:719-752, `ComputePlaneGeometry`. -/
def planeOf (p1 p2 p3 : P3) : Plane :=
  let x12 := p2.x - p1.x
  let y12 := p2.y - p1.y
  let z12 := p2.z - p1.z
  let x13 := p3.x - p1.x
  let y13 := p3.y - p1.y
  let z13 := p3.z - p1.z
  let a := y12 * z13 - z12 * y13
  let b := z12 * x13 - x12 * z13
  let c := x12 * y13 - y12 * x13
  ⟨a, b, c, -1 * (a * p1.x + b * p1.y + c * p1.z)⟩

/-- src/tdyutils.c:754-769, `GeometryGetPlaneIntercept`. -/
def planeIntercept (pl : Plane) (p1 p2 : P3) : P3 :=
  let u := (pl.a * p1.x + pl.b * p1.y + pl.c * p1.z + pl.d) /
    (pl.a * (p1.x - p2.x) + pl.b * (p1.y - p2.y) + pl.c * (p1.z - p2.z))
  ⟨p1.x + u * (p2.x - p1.x), p1.y + u * (p2.y - p1.y), p1.z + u * (p2.z - p1.z)⟩

/-- src/tdyutils.c:771-784, `GeometryProjectPointOnPlane`. -/
def projectOnPlane (pl : Plane) (p : P3) : P3 :=
  let scalar := (pl.a * p.x + pl.b * p.y + pl.c * p.z + pl.d) /
    (pl.a * pl.a + pl.b * pl.b + pl.c * pl.c)
  ⟨p.x - pl.a * scalar, p.y - pl.b * scalar, p.z - pl.c * scalar⟩

end

/-! ## Lists -/

/-- src/tdyutils.c:465-482, `TDyReturnIndexInList`.  On a miss `SETERRQ` returns the error code
`PETSC_ERR_LIB` (76) from a function whose result is the index. -/
def returnIndexInList (list : Nat → Int) (n : Nat) (value : Int) : Int :=
  match (List.range n).find? (fun i => list i == value) with
  | some i => i
  | none => 76

/-! ## Closures -/

/-- The closure table as the caller of `TDySaveClosures` sees it: rows of `2*max` entries, whether
the memory is still allocated, and the sizes. -/
structure Closures where
  allocated : Bool
  max : Nat
  rows : Nat → Nat → Int
  size : Nat → Nat

/-- src/tdyutils.c:7-42, `Increase_Closure_Array`: the caller's table is freed; the new one is
assigned to the parameter only. -/
def increaseClosures (c : Closures) (newSize : Nat) : Closures :=
  { c with allocated := false, max := newSize }

/-- src/tdyutils.c:57-70: one iteration of the loop of `TDySaveClosures_Elemnts` for element `e`
with closure `p` (`2*pSize` entries). -/
def saveClosure (c : Closures) (e : Nat) (p : List Int) (pSize : Nat) : Res Closures :=
  let c := { c with size := wr c.size e pSize }
  let c := if pSize > c.max then increaseClosures c (2*pSize) else c
  if c.allocated then
    .ok { c with rows := wr c.rows e (forN (2*pSize) (fun i r => wr r i (p.getD i 0)) (c.rows e)) }
  else .ub

/-- src/tdyutils.c:45-75 (and 78-145): the loop over elements, each with its closure. -/
def saveClosures : Closures → List (Nat × List Int × Nat) → Res Closures
  | c, [] => .ok c
  | c, (e, p, n) :: l => (saveClosure c e p n).bind fun c => saveClosures c l

end TDy.Geo
