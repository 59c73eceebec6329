/-!
# Outcomes of a C call

Every modelled function of /repo ends in one of three ways:

* it returns 0 (`ok`), leaving the object in the given state;
* it returns a non-zero `PetscErrorCode` (`err`), leaving the object in the given state
  (which need not be the state before the call);
* its behaviour is undefined (`ub`): a NULL or freed pointer is dereferenced, an array is
  indexed out of bounds, or a divisor is zero.

Undefined behaviour is an outcome of its own so that a theorem can neither assume it away nor
count it as a refusal.
-/

namespace TDy

/-- The three ways in which a C call can end, with the state it leaves behind. -/
inductive Res (σ : Type) where
  | ok (s : σ)
  | err (s : σ)
  | ub
  deriving DecidableEq, Repr

namespace Res

variable {σ : Type}

/-- `ierr = f(...); CHKERRQ(ierr);` : continue only if the call returned 0. -/
def bind (r : Res σ) (f : σ → Res σ) : Res σ :=
  match r with
  | .ok s => f s
  | .err s => .err s
  | .ub => .ub

/-- A call whose return code is dropped: continue in whatever state it left. -/
def bindIgnore (r : Res σ) (f : σ → Res σ) : Res σ :=
  match r with
  | .ok s => f s
  | .err s => f s
  | .ub => .ub

end Res

/-- How a completed call is seen by its caller. -/
inductive Status where
  | success
  | failure
  deriving DecidableEq, Repr

end TDy
