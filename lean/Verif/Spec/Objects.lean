import Verif.Model.Objects
import Mathlib.Data.Finset.Card
import Mathlib.Data.Finset.Range

/-!
# What giving back objects should mean

Independent of the functions: how many objects of each kind there are before and after.
-/

namespace TDy.Objs.Spec

open TDy TDy.Objs

/-- Numbers that were never handed out belong to no object. -/
def Unused (s : Pool) : Prop := ∀ b, s.next ≤ b → s.live b = none

/-- How many objects of a kind there are. -/
def number (k : Kind) (s : Pool) : Nat :=
  ((Finset.range s.next).filter (fun b => s.live b = some k)).card

/-- The same objects are there. -/
def Same (s s' : Pool) : Prop := ∀ b, s'.live b = s.live b

/-- The call succeeds and the objects after it are those that were there before it, no more and no
fewer. -/
def GivesBack (f : Pool → Res Pool) : Prop :=
  ∀ s, Unused s → ∃ s', f s = .ok s' ∧ Same s s' ∧ Unused s'

/-- The call succeeds, touches no object that was there before, and leaves `n k` more of each kind
`k`. -/
def Leaves (n : Kind → Nat) (f : Pool → Res Pool) : Prop :=
  ∀ s, Unused s → ∃ s', f s = .ok s' ∧ Unused s' ∧
    (∀ b, (s.live b).isSome → s'.live b = s.live b) ∧ ∀ k, number k s' = number k s + n k

/-- Only vectors: `n` of them. -/
def vectors (n : Nat) : Kind → Nat := fun k => if k = .vec then n else 0

/-- Only viewers: `n` of them. -/
def viewers (n : Nat) : Kind → Nat := fun k => if k = .viewer then n else 0

/-- A call repeated `n` times. -/
def times (f : Pool → Res Pool) : Nat → Pool → Res Pool
  | 0, s => .ok s
  | n + 1, s => (times f n s).bind f

/-- The mesh can be put in natural order: `TDyGlobalToNatural` does not end the process. -/
def Ordered (c : Cfg) : Prop := c.plex = false ∨ c.natural = true

end TDy.Objs.Spec
