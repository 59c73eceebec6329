import Mathlib.Analysis.Calculus.Deriv.Basic

/-!
# What a verification problem must satisfy

Nothing here refers to the model.  A function handed to the library computes `k` numbers at each
of `n` points with `d` coordinates; four such functions form a verification problem if the
velocity is Darcy's law for the pressure and the permeability, and the source is the divergence of
the velocity.
-/

namespace TDy.Demo.Spec

/-- Point number `i` of an array of points with `d` coordinates each. -/
def pointAt (d : Nat) (x : Nat → ℝ) (i : Nat) : Fin d → ℝ := fun j => x (d * i + j)

/-- The function writes `k` numbers for each of the points, which depend on that point only, and
nothing behind them. -/
structure Evaluates (d k : Nat) (F : Nat → (Nat → ℝ) → (Nat → ℝ) → (Nat → ℝ))
    (φ : (Fin d → ℝ) → Nat → ℝ) : Prop where
  values : ∀ n x out i, i < n → ∀ c, c < k → F n x out (k * i + c) = φ (pointAt d x i) c
  nothingElse : ∀ n x out j, k * n ≤ j → F n x out j = out j

/-- The same for the numbers at a single point, without a word about the entries behind them. -/
def AtOnePoint (d k : Nat) (F : Nat → (Nat → ℝ) → (Nat → ℝ) → (Nat → ℝ))
    (φ : (Fin d → ℝ) → Nat → ℝ) : Prop :=
  ∀ x out c, c < k → F 1 x out c = φ (pointAt d x 0) c

/-- `v = -K grad p` and `f = div v` at every point.  Entry (i, j) of the tensor is number
`d * i + j`. -/
def Solves (d : Nat) (K p v f : (Fin d → ℝ) → Nat → ℝ) : Prop :=
  ∀ x : Fin d → ℝ, ∃ g D : Fin d → ℝ,
    (∀ i, HasDerivAt (fun t => p (Function.update x i t) 0) (g i) (x i)) ∧
    (∀ i : Fin d, v x i = -∑ j : Fin d, K x (d * i + j) * g j) ∧
    (∀ i : Fin d, HasDerivAt (fun t => v (Function.update x i t) i) (D i) (x i)) ∧
    f x 0 = ∑ i, D i

/-- The tensor at every point is symmetric. -/
def SymmetricTensor (d : Nat) (K : (Fin d → ℝ) → Nat → ℝ) : Prop :=
  ∀ x, ∀ i j : Fin d, K x (d * i + j) = K x (d * j + i)

/-- The tensor at every point is positive: water flows down every gradient. -/
def PositiveTensor (d : Nat) (K : (Fin d → ℝ) → Nat → ℝ) : Prop :=
  ∀ x, ∀ g : Fin d → ℝ, g ≠ 0 → 0 < ∑ i : Fin d, ∑ j : Fin d, g i * K x (d * i + j) * g j

end TDy.Demo.Spec
