import Verif.Model.Ledger

/-!
The reader's side of C175 and C176.
-/

namespace TDy.Ledger.Spec

/-- C175: nothing the object acquired is still live. -/
def NothingLeft (s : St) : Prop := ∀ k, s.live k = 0

/-- C175: after any sequence of accepted calls, `TDyDestroy` gives back everything. -/
def DestroyGivesBack (c : Cfg) : Prop :=
  ∀ h s, run c create h = some s → NothingLeft (destroy c s)

/-- The calls come in an order that is accepted: `TDySetup` after `TDySetFromOptions`, and no
`TDySetFromOptions` after `TDySetup`. -/
def InOrder (h : List Call) : Prop :=
  (∀ a b, h = a ++ .setup :: b → .setFromOptions ∈ a) ∧
    ∀ a b, h = a ++ .setFromOptions :: b → .setup ∉ a

/-- C176: the number of times a call with a positive number of points directly follows one with
the same number of points. -/
def repeats : List Nat → Nat
  | [] => 0
  | [_] => 0
  | m :: n :: l => (if m = n ∧ n ≠ 0 then 1 else 0) + repeats (n :: l)

end TDy.Ledger.Spec
