import Mathlib.Analysis.SpecialFunctions.Integrals.Basic
import Verif.Spec.BdmUnique

/-!
# Specification: linear pressures and the BDM method

Meshes of parallelograms or parallelepipeds, the quadrature of the cells and of the faces, and what the
two cells at a face have in common.
-/

namespace TDy.Fe.Spec

open TDy.Fe Finset Matrix

noncomputable section

/-- The map of the reference cell `[-1,1]^dim` onto a parallelogram or parallelepiped: its centre, its
matrix (row major) and the determinant. -/
structure ElementMap where
  centre : Nat → ℝ
  D : Nat → ℝ
  J : ℝ

/-- The place of the reference point `ξ`. -/
def ElementMap.place (m : ElementMap) (dim : Nat) (ξ : Nat → ℝ) : Nat → ℝ := fun k =>
  m.centre k + ∑ j ∈ range dim, m.D (k*dim + j)*ξ j

/-- The pressure `p0 + γ.x`. -/
def linearPressure {dim : Nat} (p0 : ℝ) (γ : Fin dim → ℝ) (x : Nat → ℝ) : ℝ := p0 + ∑ k : Fin dim, γ k*x k

/-- A quadrature rule on `[-1,1]^n` that integrates `x_0^e_0 x_1^e_1 ...` exactly if no exponent is
larger than two.  The rule of three Gauss points in each direction (`FULL`) does. -/
def ExactRule (n nq : Nat) (w : Nat → ℝ) (x : Nat → Nat → ℝ) : Prop :=
  ∀ e : Nat → Nat, (∀ d < n, e d ≤ 2) →
    ∑ q ∈ range nq, w q*∏ d ∈ range n, x q d^e d = ∏ d ∈ range n, ∫ t in (-1 : ℝ)..1, t^e d

/-- The quadrature of a cell with the option `FULL`: exact, with positive weights, on a grid. -/
def FullRule (b : Bdm) (c : BCell) : Prop :=
  ExactRule b.dim c.nq (fun q => (c.pt q).w) (fun q => (c.pt q).x) ∧ HasRule b c
    ∧ ∀ q < c.nq, 0 < (c.pt q).w

/-- The quadrature of a cell with the option `LUMPED` (SetQuadrature): the corners, with weight one. -/
def LumpedRule (b : Bdm) (c : BCell) : Prop :=
  c.nq = b.nv ∧ ∀ q < c.nq, (c.pt q).w = 1 ∧ (c.pt q).x = quadX q

/-- The cell is the image of the reference cell under `m`. -/
structure AffineCell (b : Bdm) (c : BCell) (m : ElementMap) : Prop where
  det : (toMatrix b.dim m.D).det = m.J
  pos : 0 < m.J
  matrix : ∀ q < c.nq, ∀ k < b.dim*b.dim, (c.pt q).DF k = m.D k
  jacobian : ∀ q < c.nq, (c.pt q).J = m.J

open Classical in
/-- A face of the cell, across direction `dir` on side `side`; `fJ n` is the image of the normal of the
reference face. -/
structure AffineFace (b : Bdm) (f : BFace) (m : ElementMap) (dir side : Nat) : Prop where
  dir_lt : dir < b.dim
  side_lt : side < 2
  rule : ExactRule (b.dim - 1) f.nq (fun q => (f.pt q).w) (fun q => (f.pt q).y)
  matrix : ∀ q < f.nq, ∀ k < b.dim*b.dim, (f.pt q).DF k = m.D k
  jacobian : ∀ q < f.nq, (f.pt q).J = m.J
  normal : ∀ q < f.nq, ∀ j < b.dim,
    ∑ k ∈ range b.dim, m.D (k*b.dim + j)*((if f.side < 0 then -1 else 1)*f.normal k)*(f.pt q).fJ
      = m.J*(if j = dir then (if side = 0 then -1 else 1) else 0)

/-- The corner of velocity unknown `r`, and the centre of its face, in the reference cell. -/
def cornerOf (dim r : Nat) : Nat → ℝ := quadX (r / dim)
def faceCentreOf (dim r : Nat) : Nat → ℝ := fun j => if j = r % dim then quadX (r / dim) j else 0

/-- The part of the outward area vector of a face that belongs to velocity unknown `r`: `J D^-T` times
the outward normal of the reference face. -/
def areaOf (b : Bdm) (m : ElementMap) (r : Nat) : Fin b.dim → ℝ := fun k =>
  quadX (r / b.dim) (r % b.dim)*m.J*ofMatrix (toMatrix b.dim m.D)⁻¹ ((r % b.dim)*b.dim + k)

/-- Velocity unknowns with the same row belong to the same corner of the same face, seen from the two
sides. -/
structure Conforming (b : Bdm) (map : Nat → ElementMap) : Prop where
  corner : ∀ u v, Unknown b u → Unknown b v → u ≠ v → rowOf b u = rowOf b v → ∀ k < b.dim,
    (map u.1).place b.dim (cornerOf b.dim u.2) k = (map v.1).place b.dim (cornerOf b.dim v.2) k
  centre : ∀ u v, Unknown b u → Unknown b v → u ≠ v → rowOf b u = rowOf b v → ∀ k < b.dim,
    (map u.1).place b.dim (faceCentreOf b.dim u.2) k = (map v.1).place b.dim (faceCentreOf b.dim v.2) k
  area : ∀ u v, Unknown b u → Unknown b v → u ≠ v → rowOf b u = rowOf b v →
    areaOf b (map v.1) v.2 = -areaOf b (map u.1) u.2
  orient : ∀ u, Unknown b u → signOf b u = 1 ∨ signOf b u = -1

/-- The pressure given at the boundary is `p0 + γ.x`. -/
def LinearBoundary (b : Bdm) (map : Nat → ElementMap) (p0 : ℝ) (γ : Fin b.dim → ℝ) : Prop :=
  ∀ i < b.nCells, (b.cell i).owned = true → ∀ f < (b.cell i).nFaces, ((b.cell i).face f).isbc = true →
    b.hasPressure = true → ∃ dir side, FaceAt b (b.cell i) ((b.cell i).face f) dir side
      ∧ AffineFace b ((b.cell i).face f) (map i) dir side
      ∧ ∀ q < ((b.cell i).face f).nq, (((b.cell i).face f).pt q).g
        = linearPressure p0 γ ((map i).place b.dim (singlePoint dir side (((b.cell i).face f).pt q).y))

end

end TDy.Fe.Spec
