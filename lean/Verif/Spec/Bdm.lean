import Mathlib.LinearAlgebra.Matrix.DotProduct
import Mathlib.LinearAlgebra.Matrix.Symmetric
import Verif.Model.Bdm

/-!
# Specification of the BDM system: the discrete mixed problem

Find velocity and pressure with `(K^-1 u, v) - (p, div v) = -<g, v.n>` and `-(r, div u) = -(f, r)` for
all test functions.
-/

namespace TDy.Fe.Spec

open TDy.Fe Finset Matrix

noncomputable section

/-- Velocity at a point of a cell from the global coefficients `x`: the combination of the basis
functions with the coefficients of the cell, each with its orientation.  `basis` is the array of basis
functions at the point. -/
def velocity (b : Bdm) (c : BCell) (basis : Nat → ℝ) (x : Nat → ℝ) : Fin b.dim → ℝ := fun k =>
  ∑ r ∈ range (b.dim*b.nv), (c.orient r : ℝ)*x (c.ltog r)*basis (r*b.dim + k)

/-- Pressure of a cell. -/
def pressure (b : Bdm) (c : BCell) (x : Nat → ℝ) : ℝ := x (c.ltog (b.dim*b.nv))

/-- Integral of the divergence of the velocity over a cell, all basis functions having integral one
(C74). -/
def outflow (b : Bdm) (c : BCell) (x : Nat → ℝ) : ℝ :=
  ∑ r ∈ range (b.dim*b.nv), (c.orient r : ℝ)*x (c.ltog r)

/-- `(K^-1 u, v)` over a cell by the quadrature rule of the cell. -/
def energy (b : Bdm) (c : BCell) (K : Matrix (Fin b.dim) (Fin b.dim) ℝ) (x y : Nat → ℝ) : ℝ :=
  ∑ q ∈ range c.nq,
    ((K⁻¹ *ᵥ velocity b c (hdivBasis b.dim (c.pt q).x (c.pt q).DF (c.pt q).J) x) ⬝ᵥ
      velocity b c (hdivBasis b.dim (c.pt q).x (c.pt q).DF (c.pt q).J) y)*((c.pt q).w*(c.pt q).J)

/-- `(f, 1)` over a cell. -/
def source (b : Bdm) (c : BCell) : ℝ :=
  if b.hasForcing then ∑ q ∈ range c.nq, (c.pt q).force*((c.pt q).w*(c.pt q).J) else 0

/-- Where face `f` is in the cell: direction and side of the reference cell. -/
def FaceAt (b : Bdm) (c : BCell) (f : BFace) (dir side : Nat) : Prop :=
  faceDirSide b.dim b.nv c.emap f.id = some (dir, side)

open Classical in
/-- `<g, v.n>` over a face of a cell. -/
def faceIntegral (b : Bdm) (c : BCell) (f : BFace) (y : Nat → ℝ) : ℝ :=
  match faceDirSide b.dim b.nv c.emap f.id with
  | none => 0
  | some (dir, side) => ∑ q ∈ range f.nq,
      (f.pt q).g*(velocity b c (hdivBasis b.dim (singlePoint dir side (f.pt q).y) (f.pt q).DF (f.pt q).J) y
        ⬝ᵥ fun k => (if f.side < 0 then -1 else 1)*f.normal k)*((f.pt q).w*(f.pt q).fJ)

/-- `<g, v.n>` over the faces of the cell on which a pressure is given. -/
def boundaryIntegral (b : Bdm) (c : BCell) (y : Nat → ℝ) : ℝ :=
  ∑ i ∈ range c.nFaces, if (c.face i).isbc && b.hasPressure then faceIntegral b c (c.face i) y else 0

/-- The bilinear form of the mixed problem over the cells the process owns. -/
def form (b : Bdm) (perm : Nat → Nat → ℝ) (x y : Nat → ℝ) : ℝ :=
  ∑ i ∈ range b.nCells, if (b.cell i).owned then
    energy b (b.cell i) (toMatrix b.dim (perm i)) x y
      - pressure b (b.cell i) x*outflow b (b.cell i) y
      - pressure b (b.cell i) y*outflow b (b.cell i) x else 0

/-- The right hand side. -/
def load (b : Bdm) (y : Nat → ℝ) : ℝ :=
  ∑ i ∈ range b.nCells, if (b.cell i).owned then
    -boundaryIntegral b (b.cell i) y - pressure b (b.cell i) y*source b (b.cell i) else 0

/-- Every row a cell uses is one of the `N` rows of the system. -/
def RowsBelow (b : Bdm) (N : Nat) : Prop :=
  ∀ i < b.nCells, (b.cell i).owned = true → ∀ r < b.dim*b.nv + 1, (b.cell i).ltog r < N

/-- Unknown `r` of a cell (corner `r/dim`, direction `r % dim`) belongs to the face across direction
`dir` on side `side`. -/
def OnSide (b : Bdm) (r dir side : Nat) : Prop := r % b.dim = dir ∧ (r / b.dim / 2^dir) % 2 = side

/-- Unknown `r` of a cell belongs to its face `i`, on which a pressure is given. -/
def OnBoundary (b : Bdm) (c : BCell) (i r : Nat) : Prop :=
  i < c.nFaces ∧ (c.face i).isbc = true ∧ b.hasPressure = true
    ∧ ∃ dir side, FaceAt b c (c.face i) dir side ∧ OnSide b r dir side

open Classical in
/-- The quadrature on a face is exact for constants and for products of the coordinates, and `fJ n` is
the image of the normal of the reference face. -/
structure FaceGeometry (b : Bdm) (f : BFace) (dir side : Nat) : Prop where
  dir_lt : dir < b.dim
  weights : ∑ q ∈ range f.nq, (f.pt q).w = 2^(b.dim - 1)
  linear : ∀ k < b.dim - 1, ∑ q ∈ range f.nq, (f.pt q).w*(f.pt q).y k = 0
  product : b.dim = 3 → ∑ q ∈ range f.nq, (f.pt q).w*((f.pt q).y 0*(f.pt q).y 1) = 0
  regular : ∀ q < f.nq, (f.pt q).J ≠ 0
  normal : ∀ q < f.nq, ∀ m < b.dim,
    ∑ k ∈ range b.dim, (f.pt q).DF (k*b.dim + m)*((if f.side < 0 then -1 else 1)*f.normal k)*(f.pt q).fJ
      = (f.pt q).J*(if m = dir then (if side = 0 then -1 else 1) else 0)

/-- The velocity unknowns of the cells: `(c, r)`. -/
def Unknown (b : Bdm) (u : Nat × Nat) : Prop :=
  u.1 < b.nCells ∧ (b.cell u.1).owned = true ∧ u.2 < b.dim*b.nv

/-- A mesh without gaps, all of whose boundary has a given pressure: every velocity unknown of a cell
is on exactly one face with a given pressure, or is the unknown of exactly one other cell with the
opposite orientation. -/
structure Closed (b : Bdm) (other : Nat × Nat → Nat × Nat) : Prop where
  once : ∀ u, Unknown b u → ∀ i j, OnBoundary b (b.cell u.1) i u.2 → OnBoundary b (b.cell u.1) j u.2 →
    i = j
  other_unknown : ∀ u, Unknown b u → (∀ i, ¬ OnBoundary b (b.cell u.1) i u.2) →
    Unknown b (other u) ∧ (∀ i, ¬ OnBoundary b (b.cell (other u).1) i (other u).2)
  other_ne : ∀ u, Unknown b u → (∀ i, ¬ OnBoundary b (b.cell u.1) i u.2) → other u ≠ u
  other_other : ∀ u, Unknown b u → (∀ i, ¬ OnBoundary b (b.cell u.1) i u.2) → other (other u) = u
  other_row : ∀ u, Unknown b u → (∀ i, ¬ OnBoundary b (b.cell u.1) i u.2) →
    (b.cell (other u).1).ltog (other u).2 = (b.cell u.1).ltog u.2
    ∧ (b.cell (other u).1).orient (other u).2 = -(b.cell u.1).orient u.2

end

end TDy.Fe.Spec
