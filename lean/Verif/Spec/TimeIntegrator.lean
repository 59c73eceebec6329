import Mathlib.Data.Real.Basic
import Mathlib.Algebra.BigOperators.Group.List.Basic

/-!
# Specification: what an observer of a run sees

Times are real numbers, `V` is the type of solution vectors.
-/

namespace TDy.Time

/-- One call of the nonlinear solver. -/
structure Attempt (V : Type) where
  /-- time at which the step starts -/
  start : ℝ
  /-- step length used in the residual -/
  dtime : ℝ
  /-- initial guess -/
  guess : V
  /-- the previous solution, from which the residual's old mass is computed -/
  prev : V
  /-- the vector left by the solver -/
  result : V
  /-- converged -/
  ok : Bool

/-- An observable event of a run. -/
inductive Ev (V : Type) where
  | attempt (a : Attempt V)
  /-- an output of vector `v`, labelled with a time and a step count -/
  | output (time : ℝ) (istep : Nat) (v : V)
  /-- a checkpoint of vector `v`, labelled with a time and a step count -/
  | checkpoint (time : ℝ) (istep : Nat) (v : V)

namespace Spec

variable {V : Type}

/-- The solver calls, in order. -/
def attempts (tr : List (Ev V)) : List (Attempt V) :=
  tr.filterMap fun | .attempt a => some a | _ => none

/-- The accepted steps, in order. -/
def accepted (tr : List (Ev V)) : List (Attempt V) := (attempts tr).filter (fun a => a.ok)

/-- The failed solves, in order. -/
def failed (tr : List (Ev V)) : List (Attempt V) := (attempts tr).filter (fun a => !a.ok)

/-- The simulated time: the sum of the lengths of the steps solved. -/
noncomputable def simulated (tr : List (Ev V)) : ℝ := ((accepted tr).map (·.dtime)).sum

/-- The checkpointed vectors, in order. -/
def checkpoints (tr : List (Ev V)) : List V :=
  tr.filterMap fun | .checkpoint _ _ v => some v | _ => none

/-- The step counts of the outputs, in order. -/
def outputs (tr : List (Ev V)) : List Nat :=
  tr.filterMap fun | .output _ i _ => some i | _ => none

end Spec

end TDy.Time

namespace TDy.Time.Spec

variable {V : Type}

/-- Every solver call starts from, and measures change against, the last accepted solution, `p`
being the one accepted before the first call. -/
def FromAccepted (p : V) : List (Attempt V) → Prop
  | [] => True
  | a :: l => a.prev = p ∧ a.guess = p ∧ FromAccepted (if a.ok then a.result else p) l

/-- The last accepted solution, `p` being the one accepted before the first call. -/
def lastAccepted (p : V) (l : List (Attempt V)) : V :=
  l.foldl (fun p a => if a.ok then a.result else p) p

end TDy.Time.Spec
