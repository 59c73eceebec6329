import Verif.Spec.MpfaoCoupled

/-!
# C212: what is meant by fresh water in a cell

A cell with the mass `W` of water and the concentration `psi` of salt holds `psi*W` of salt and
`(1 - psi)*W` of everything else.
-/

namespace TDy.Mpfao.Spec

open TDy.Mpfao

noncomputable section

/-- The mass in cell `j` that is not salt. -/
def freshPart (s : Sal) (j : Nat) : ℝ := (1 - s.psi j)*waterMass s.base j

/-- Neither gravity nor dispersion: water moves by pressure only, salt with the water only. -/
structure AdvectionOnly (s : Sal) : Prop where
  gravity : ∀ row, s.base.grav row = 0
  dispersion : ∀ row, ttimesPsi s row = 0

/-- A step of length `dtime` from `s0` to `s` on one process that solves both equations of every
cell. -/
structure SalStep (s0 s : Sal) (dtime : ℝ) : Prop where
  cells : s0.base.numCells = s.base.numCells
  own0 : OwnsAll s0.base
  own : OwnsAll s.base
  solved : ∃ old, ∀ j < s.base.numCells,
    salFunction s dtime (salPreSolve s0 dtime old) (2*j) = 0 ∧
    salFunction s dtime (salPreSolve s0 dtime old) (2*j + 1) = 0

/-- No sources of water and none of salt. -/
def NoSources (s : Sal) : Prop := (∀ j, s.base.source j = 0) ∧ ∀ j, s.saltSource j = 0

/-- All concentrations of the cells of the mesh lie between 0 and 1. -/
def Possible (s : Sal) : Prop := ∀ j < s.base.numCells, 0 ≤ s.psi j ∧ s.psi j ≤ 1

end

end TDy.Mpfao.Spec
