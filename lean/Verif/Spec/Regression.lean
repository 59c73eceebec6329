import Mathlib.Data.Real.Basic
import Mathlib.Algebra.BigOperators.Group.Finset.Basic

/-! # Vocabulary for the regression file -/

namespace TDy.Regress.Spec

/-- The cells `0 .. n-1` have the values `f`; `hi`, `lo` and `mean` are the largest, the smallest and
the mean one. -/
structure Statistics (n : Nat) (f : Nat → ℝ) (hi lo : Option ℝ) (mean : ℝ) : Prop where
  hi : ∃ m, hi = some m ∧ (∃ k < n, f k = m) ∧ ∀ k < n, f k ≤ m
  lo : ∃ m, lo = some m ∧ (∃ k < n, f k = m) ∧ ∀ k < n, m ≤ f k
  mean : mean*n = ∑ k ∈ Finset.range n, f k

/-- `cells` are different cells: `num` of each of the ranks `0 .. R`, where rank `r` has the cells
from `first r` on, before `first (r+1)`. -/
structure Sampled (cells : List Nat) (num R : Nat) (first : Nat → Nat) : Prop where
  increasing : cells.Pairwise (· < ·)
  perRank : ∀ r ≤ R, (cells.filter fun k => decide (first r ≤ k ∧ k < first (r + 1))).length = num
  total : cells.length = (R + 1)*num

end TDy.Regress.Spec
