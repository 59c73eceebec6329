import Mathlib.Data.Set.Defs

/-!
# Specification: which registration of a point counts

A user registers lists of points, one list per model type.  If a list names a point twice the
later entry counts.
-/

namespace TDy.Curves.Spec

/-- Entry `i` of the list `pts` of length `n` is the last one naming point `j`. -/
def IsLast (n : Nat) (pts : Nat → Nat) (j i : Nat) : Prop :=
  i < n ∧ pts i = j ∧ ∀ i', i < i' → i' < n → pts i' ≠ j

/-- Point `j` is named in the list `pts` of length `n`. -/
def Named (n : Nat) (pts : Nat → Nat) (j : Nat) : Prop := ∃ i, i < n ∧ pts i = j

end TDy.Curves.Spec
