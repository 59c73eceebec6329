import Verif.Model.Timers
import Mathlib.Data.Finset.Card
import Mathlib.Algebra.BigOperators.Group.Finset.Basic

/-! # Specification: what a profile should say of an execution -/

namespace TDy.Timers.Spec

open TDy.Timers

/-- The times of the calls of a function that are not inside another call of the same function. -/
def outermost (name : String) : Exec → List (Int × Int)
  | .done => []
  | .call n t0 t1 inside rest =>
    (if n = name then [(t0, t1)] else outermost name inside) ++ outermost name rest

/-- The total duration of some calls. -/
def total (l : List (Int × Int)) : Int := (l.map fun c => c.2 - c.1).sum

/-- The times of the outermost calls of functions that belong to a set. -/
def outermostOf (p : String → Bool) : Exec → List (Int × Int)
  | .done => []
  | .call n t0 t1 inside rest =>
    (if p n then [(t0, t1)] else outermostOf p inside) ++ outermostOf p rest

/-- The begins of all calls of a function, in order. -/
def begins (name : String) : Exec → List Int
  | .done => []
  | .call n t0 _ inside rest =>
    (if n = name then [t0] else []) ++ begins name inside ++ begins name rest

/-- The record of a function in a log (nothing if it was never called). -/
def record (l : Log) (name : String) : Event :=
  (l.table.lookup name).elim ⟨0, 0, 0⟩ l.event

/-- Some entry of a table is picked whenever there is one, and only entries of the table. -/
def Picks (first : List (Nat × Meta) → Option Meta) : Prop :=
  (∀ t, t ≠ [] → ∃ m, first t = some m ∧ m ∈ t.map Prod.snd) ∧ first [] = none

end TDy.Timers.Spec
