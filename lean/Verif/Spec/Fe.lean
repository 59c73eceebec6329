import Mathlib.Analysis.Calculus.Deriv.Basic
import Mathlib.MeasureTheory.Integral.Bochner.Set
import Mathlib.MeasureTheory.Measure.Lebesgue.Basic

/-!
# What a basis of H(div) is

Vector fields on the reference cell `[-1,1]^n`, their divergence, and what it means that a family of
fields, one for each corner and direction, is nodal.
-/

namespace TDy.Fe.Spec

noncomputable section

/-- A vector field in `n` dimensions. -/
abbrev Field (n : Nat) := (Fin n → ℝ) → (Fin n → ℝ)

/-- Its divergence: the sum of the partial derivatives `∂F_e/∂x_e`. -/
def divergence {n : Nat} (F : Field n) (x : Fin n → ℝ) : ℝ :=
  ∑ e, deriv (fun t => F (Function.update x e t) e) (x e)

/-- The partial derivatives entering the divergence exist everywhere. -/
def HasDivergence {n : Nat} (F : Field n) : Prop :=
  ∀ x e, DifferentiableAt ℝ (fun t => F (Function.update x e t) e) (x e)

/-- The reference cell. -/
def cell (n : Nat) : Set (Fin n → ℝ) := Set.Icc (fun _ => -1) (fun _ => 1)

/-- A corner of the reference cell: in which direction it lies on the upper side. -/
abbrev Corner (n : Nat) := Fin n → Bool

/-- -1 for the lower side, 1 for the upper side. -/
def sgn (b : Bool) : ℝ := if b then 1 else -1

/-- The point of a corner. -/
def Corner.point {n : Nat} (v : Corner n) : Fin n → ℝ := fun d => sgn (v d)

/-- The component of the field along the outward normal of the face `x_e = sgn s`. -/
def outward {n : Nat} (F : Field n) (e : Fin n) (s : Bool) (x : Fin n → ℝ) : ℝ := sgn s*F x e

/-- A family of fields, one per corner `v` and direction `d`, is a nodal basis of the normal
components: on the face of `v` across direction `d` the outward normal component of the field `(v,d)`
is the multilinear function which is 1 at `v` and 0 at the other corners of that face, and on every
other face the normal component is 0. -/
def Nodal {n : Nat} (F : Corner n → Fin n → Field n) : Prop :=
  ∀ v d e s x, x e = sgn s →
    outward (F v d) e s x =
      if e = d ∧ s = v d then ∏ k ∈ Finset.univ.erase d, (1 + sgn (v k)*x k)/2 else 0

end

end TDy.Fe.Spec
