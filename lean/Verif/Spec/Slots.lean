import Verif.Model.Slots

/-! # What the callback properties mean, in terms of the setter calls made -/

namespace TDy.Slots.Spec

/-- The last setter call for a quantity, if any. -/
def lastSet {κ : Type} [DecidableEq κ] (k : κ) : List (SetCall κ) → Option (SetCall κ)
  | [] => none
  | c :: cs => (lastSet k cs).or (if c.key = k then some c else none)

/-- The (destructor, context) pairs handed over by setter calls: those with both. -/
def owned {κ : Type} : List (SetCall κ) → List (Nat × Nat)
  | [] => []
  | c :: cs =>
    match c.dtor, c.context with
    | some d, some x => (d, x) :: owned cs
    | _, _ => owned cs

/-- The tensor of point `i` in an array of `dim*dim` blocks, row-major. -/
def tensorAt {α : Type} (dim : Nat) (f : Nat → α) (i r c : Nat) : α := f (dim*dim*i + r*dim + c)

end TDy.Slots.Spec
