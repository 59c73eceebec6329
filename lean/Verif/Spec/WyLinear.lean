import Verif.Spec.WyEnergy
import Mathlib.LinearAlgebra.Matrix.NonsingularInverse

/-!
The reader's side of C208: cells that are images of the reference cell `[-1,1]^dim` under affine maps, and
a pressure that is linear in space.
-/

namespace TDy.Fe.Spec

open TDy.Fe Finset

noncomputable section

/-- Cell `c` is the image of the reference cell under `xi |-> x_c + D xi`, of positive volume
`2^dim det D`: a parallelogram or parallelepiped.  The centroid of the face of corner `q` in direction `i`
lies half an edge of that direction from the centre of the cell, its normal is perpendicular to the other
edges, and its area times the height of the cell above it, outward, is the volume. -/
structure Affine (w : Wy) (c : Nat) (D : Matrix (Fin w.dim) (Fin w.dim) ℝ) : Prop where
  volume : 0 < D.det
  inverse : ∀ q < w.nq, toMatrix w.dim (w.DFinv c q) = D⁻¹
  jacobian : ∀ q < w.nq, w.J c q = D.det
  centroid : ∀ q < w.nq, ∀ i k : Fin w.dim, w.X (w.face c q i) k = w.X c k + cornerSide q i*D k i
  normal : ∀ q < w.nq, ∀ i j : Fin w.dim, j ≠ i → ∑ k : Fin w.dim, w.N (w.face c q i) k*D k j = 0
  area : ∀ q < w.nq, ∀ i : Fin w.dim,
    w.V (w.face c q i)*(w.sign c q i*∑ k : Fin w.dim, w.N (w.face c q i) k*(2*cornerSide q i*D k i)) = 2^w.dim*D.det

/-- The linear function `b + g . x` at the centroid of a cell or face. -/
def linearAt (w : Wy) (b : ℝ) (g : Fin w.dim → ℝ) (a : Nat) : ℝ := b + ∑ k : Fin w.dim, g k*w.X a k

/-- The velocity `-K grad p` through a face along its normal, where `W = K grad p`. -/
def normalVelocity (w : Wy) (W : Fin w.dim → ℝ) (f : Nat) : ℝ := -∑ k : Fin w.dim, W k*w.N f k

end

end TDy.Fe.Spec
