import Verif.Spec.RunBalance
import Verif.Spec.FvtpfMonotone

/-!
# Specification: two runs of one model

What can be seen of the steps of a run without looking at the solutions, and runs of the two-point
method whose steps were solved.
-/

namespace TDy.Time.Spec

variable {V : Type}

/-- The solver calls of a run: where they start, how long the step is, whether they succeed. -/
def steps (l : List (Attempt V)) : List (ℝ × ℝ × Bool) := l.map fun a => (a.start, a.dtime, a.ok)

/-- The solver call `a` solved its step on the two-point method exactly. -/
def StepSolved (at_ : V → Fvtpf.Ctx) (a : Attempt V) : Prop :=
  Fvtpf.Spec.Solved (at_ a.prev) (at_ a.result) a.dtime

/-- The water that would have to be moved, added or taken away to make one state the other. -/
noncomputable def apart (n : Nat) (a b : Fvtpf.Ctx) : ℝ :=
  ∑ j ∈ Finset.range n, |Fvtpf.Spec.mass a j - Fvtpf.Spec.mass b j|

end TDy.Time.Spec
