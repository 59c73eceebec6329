import Verif.Spec.Shift
import Mathlib.Tactic.NormNum

/-!
# The same mesh, turned

All points and vectors of a mesh are turned in the same way, tensors along with them.
-/

namespace TDy.Geo.Spec

/-- A rotation: the three vectors that the unit vectors along the axes are turned into.  The first two have
length one and are perpendicular to each other; the third follows from them by the right-hand rule. -/
structure Rotation where
  e1 : P3
  e2 : P3
  e3 : P3
  length1 : e1.x * e1.x + e1.y * e1.y + e1.z * e1.z = 1
  length2 : e2.x * e2.x + e2.y * e2.y + e2.z * e2.z = 1
  right : e1.x * e2.x + e1.y * e2.y + e1.z * e2.z = 0
  third : e3 = ⟨e1.y * e2.z - e1.z * e2.y, e1.z * e2.x - e1.x * e2.z, e1.x * e2.y - e1.y * e2.x⟩

/-- The point or vector `p`, turned. -/
def turn (R : Rotation) (p : P3) : P3 :=
  ⟨p.x * R.e1.x + p.y * R.e2.x + p.z * R.e3.x, p.x * R.e1.y + p.y * R.e2.y + p.z * R.e3.y,
   p.x * R.e1.z + p.y * R.e2.z + p.z * R.e3.z⟩

/-- Entry `i`, `a` of the matrix of the rotation: component `i` of what axis `a` is turned into. -/
def Rotation.entry (R : Rotation) (i a : Fin 3) : ℝ :=
  let e := match a with | 0 => R.e1 | 1 => R.e2 | 2 => R.e3
  match i with | 0 => e.x | 1 => e.y | 2 => e.z

/-- The tensor `K`, turned: the product of the matrix of the rotation, `K` and the transposed matrix. -/
def turnK (R : Rotation) (K : Fin 3 → Fin 3 → ℝ) (i j : Fin 3) : ℝ :=
  R.entry i 0 * (K 0 0 * R.entry j 0 + K 0 1 * R.entry j 1 + K 0 2 * R.entry j 2) +
  R.entry i 1 * (K 1 0 * R.entry j 0 + K 1 1 * R.entry j 1 + K 1 2 * R.entry j 2) +
  R.entry i 2 * (K 2 0 * R.entry j 0 + K 2 1 * R.entry j 1 + K 2 2 * R.entry j 2)

/-- A mesh as the search for the order of cells around vertices reads it, turned. -/
def turnT (R : Rotation) (m : Traverse.TMesh) : Traverse.TMesh :=
  { m with
    coord := fun v => turn R (m.coord v)
    cellCen := fun c => turn R (m.cellCen c)
    faceCen := fun f => turn R (m.faceCen f) }

/-- A mesh as the set up of the subcells reads it, turned. -/
def turnS (R : Rotation) (m : Subcells.Mesh) : Subcells.Mesh :=
  { m with
    coord := fun v => turn R (m.coord v)
    cellCen := fun c => turn R (m.cellCen c)
    fCen := fun f => turn R (m.fCen f) }

/-- A mesh as the gravity coefficients and the two-point matrices read it, turned, with gravity.  The
tensors are left as they are, which is right for isotropic ones. -/
def turnG (R : Rotation) (m : Mpfao.GravCtx) : Mpfao.GravCtx :=
  { m with
    cellCen := fun c => turn R (m.cellCen c)
    faceCen := fun f => turn R (m.faceCen f)
    normal := fun f => turn R (m.normal f)
    gravity := turn R m.gravity }

/-- The permeability of every cell is the same in all directions. -/
def Isotropic (K0 : Nat → ℝ) : Prop :=
  ∃ k : Nat → ℝ, ∀ c, ∀ i < 3, ∀ j < 3, K0 (c*9 + i*3 + j) = if i = j then k c else 0

/-- The tables of the subcells of a mesh and of the turned mesh: the same numbers, areas and volumes;
points and vectors are turned. -/
structure Turned (R : Rotation) (t t' : Subcells.Tables) : Prop where
  faceIds : t'.faceIds = t.faceIds
  vertexIds : t'.vertexIds = t.vertexIds
  faceArea : t'.faceArea = t.faceArea
  nu : ∀ k, t'.nu k = turn R (t.nu k)
  T : t'.T = t.T
  contin : ∀ k, t'.contin k = turn R (t.contin k)
  faceCen : ∀ k, t'.faceCen k = turn R (t.faceCen k)

/-- Both set ups end in undefined behaviour, or both give tables that agree but for the direction. -/
def TurnedRes (R : Rotation) : Res Subcells.Tables → Res Subcells.Tables → Prop
  | .ok t, .ok t' => Turned R t t'
  | .ub, .ub => True
  | _, _ => False

/-- What is computed for a face, turned: its direction turns, its numbers stay. -/
def turnAttr (R : Rotation) (a : FaceGeom.Attr) : FaceGeom.Attr := { a with unit := turn R a.unit }

/-- The rotation is about the vertical axis. -/
def Rotation.Upright (R : Rotation) : Prop := R.e3 = ⟨0, 0, 1⟩

/-- Half a turn about the first axis: up is down. -/
def overturn : Rotation where
  e1 := ⟨1, 0, 0⟩
  e2 := ⟨0, -1, 0⟩
  e3 := ⟨0, 0, -1⟩
  length1 := by norm_num
  length2 := by norm_num
  right := by norm_num
  third := by norm_num

/-- Half a turn about the vertical axis. -/
def aboutFace : Rotation where
  e1 := ⟨-1, 0, 0⟩
  e2 := ⟨0, -1, 0⟩
  e3 := ⟨0, 0, 1⟩
  length1 := by norm_num
  length2 := by norm_num
  right := by norm_num
  third := by norm_num

/-- A turn about the first axis by the angle of the triangle with sides 3, 4 and 5. -/
noncomputable def tilt : Rotation where
  e1 := ⟨1, 0, 0⟩
  e2 := ⟨0, 3/5, 4/5⟩
  e3 := ⟨0, -4/5, 3/5⟩
  length1 := by norm_num
  length2 := by norm_num
  right := by norm_num
  third := by norm_num

end TDy.Geo.Spec
