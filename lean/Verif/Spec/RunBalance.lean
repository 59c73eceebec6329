import Verif.Spec.TimeIntegrator

/-!
# Specification: what a run gains

A run is seen as the list of its solver calls.  A quantity that depends on the solution (the water in the
domain, say) is supplied at a rate that depends on the solution.
-/

namespace TDy.Time.Spec

variable {V : Type}

/-- What has been supplied in the steps that were accepted, each at the rate of its result. -/
noncomputable def supplied (rate : V → ℝ) (l : List (Attempt V)) : ℝ :=
  ((l.filter fun a => a.ok).map fun a => a.dtime*rate a.result).sum

/-- The time these steps took. -/
noncomputable def spent (l : List (Attempt V)) : ℝ := ((l.filter fun a => a.ok).map (·.dtime)).sum

/-- The amount went from `amount p` to `amount q` by what was supplied, up to `e` per unit of time. -/
def Settled (amount rate : V → ℝ) (e : ℝ) (p q : V) (l : List (Attempt V)) : Prop :=
  |amount q - amount p - supplied rate l| ≤ e*spent l

end TDy.Time.Spec
