import Verif.Model.MpfaoGravity
import Verif.Spec.Geometry
import Mathlib.LinearAlgebra.Matrix.PosDef
import Mathlib.Data.Real.StarOrdered

/-!
# What the face permeability and the gravity coefficients should be
-/

namespace TDy.Mpfao.Spec

noncomputable section

/-- The permeability tensor of a cell. -/
def tensor (m : GravCtx) (c : Nat) : Matrix (Fin 3) (Fin 3) ℝ :=
  Matrix.of fun i j => m.K0 (c*9 + i*3 + j)

/-- A face `f` between cells `up` and `dn`, or between a cell and the boundary; in this case the
cell stands on both sides. -/
def Joins (m : GravCtx) (f up dn : Nat) : Prop :=
  ((m.face f).up = up ∧ (m.face f).dn = dn) ∨
  ((m.face f).up = up ∧ (m.face f).dn < 0 ∧ dn = up) ∨
  ((m.face f).up < 0 ∧ (m.face f).dn = dn ∧ up = dn)

/-- Distance of the cell on one side from the face; the boundary is at distance 0. -/
def sideDistance (m : GravCtx) (f : Nat) (id : ℤ) : ℝ :=
  if 0 ≤ id then Real.sqrt (((m.faceCen f).x - (m.cellCen id.toNat).x)^2 +
    ((m.faceCen f).y - (m.cellCen id.toNat).y)^2 + ((m.faceCen f).z - (m.cellCen id.toNat).z)^2)
  else 0

/-- Share of the up side in the distance between the two sides. -/
def weight (m : GravCtx) (f : Nat) : ℝ :=
  sideDistance m f (m.face f).up / (sideDistance m f (m.face f).up + sideDistance m f (m.face f).dn)

/-- The distance-weighted harmonic mean of the tensors of two cells. -/
def meanTensor (m : GravCtx) (f up dn : Nat) : Matrix (Fin 3) (Fin 3) ℝ :=
  (weight m f • (tensor m up)⁻¹ + (1 - weight m f) • (tensor m dn)⁻¹)⁻¹

/-- A mesh as `TDyMeshCreateFromPlex` builds it. -/
structure MeshOk (m : GravCtx) : Prop where
  /-- the `s`-th subface of a face is the one next to its `s`-th vertex -/
  corner : ∃ faceVertex : Nat → Nat → Nat, ∀ v i, i < m.nFaces v →
    m.vSub v i < 4 ∧ faceVertex (m.vFace v i) (m.vSub v i) = v
  /-- the faces of a vertex are listed once -/
  once : ∀ v i j, i < m.nFaces v → j < m.nFaces v → m.vFace v i = m.vFace v j → i = j
  /-- a face around a vertex has a cell; each of its cells has the vertex, and the face is one
  of the three faces of the cell there -/
  incident : ∀ v i, i < m.nFaces v → (0 ≤ (m.face (m.vFace v i)).up ∨ 0 ≤ (m.face (m.vFace v i)).dn)
  cell : ∀ v i (c : Nat), i < m.nFaces v →
    (m.face (m.vFace v i)).up = c ∨ (m.face (m.vFace v i)).dn = c →
    c < m.numCells ∧ ∃ s d, s < m.nSub ∧ d < 3 ∧ m.cellVertex c s = v ∧ m.cellFace c s d = m.vFace v i

/-- The gravity coefficient of a part of face `f` with area `A`: area times permeability along the
line between the two sides `u`, times the component of gravity along this line. -/
def coefficient (m : GravCtx) (f : Nat) (A : ℝ) : ℝ :=
  let u := upDown m f
  let n := m.normal f
  let k := if m.tpf then (n.x*u.x + n.y*u.y + n.z*u.z) * permTPF m f
    else ![n.x, n.y, n.z] ⬝ᵥ (Geo.Spec.matrix (faceTensor m f)).mulVec ![u.x, u.y, u.z]
  A * k * (|m.gravity.x| * u.x + |m.gravity.y| * u.y + |m.gravity.z| * u.z)

end

end TDy.Mpfao.Spec
