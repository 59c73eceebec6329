import Mathlib.Data.Finset.Card
import Mathlib.Data.Finset.Range

/-! # What is expected of the numbers of cells and columns -/

namespace TDy.MeshCount.Spec

/-- Number of the first `n` that satisfy `p`. -/
def count (n : Nat) (p : Nat → Prop) [DecidablePred p] : Nat := ((Finset.range n).filter p).card

/-- What PETSc gives as the global start of the unknowns of a cell: the start if this rank owns the
cell, minus the start minus one otherwise. -/
def globalStart (owned : Nat → Bool) (start : Nat → Nat) (c : Nat) : Int :=
  if owned c then (start c : Int) else -((start c : Int)) - 1

end TDy.MeshCount.Spec
