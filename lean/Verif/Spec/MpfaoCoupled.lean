import Verif.Model.MpfaoCoupled
import Verif.Spec.MpfaoFlux

/-! # Vocabulary for the coupled modes: water and salt, water and heat -/

namespace TDy.Mpfao.Spec

open TDy.Mpfao

noncomputable section

/-- Mass of salt in a cell. -/
def saltMass (s : Sal) (i : Nat) : ℝ := waterMass s.base i*s.psi i

/-- No salt in the cells, nor on the boundary. -/
def Fresh (s : Sal) : Prop := (∀ j, s.psi j = 0) ∧ ∀ j, s.psiBnd j = 0

/-- No subface reads the row of another one. -/
def OwnSlots (c : Ctx) : Prop := ∀ v i v' i', IsSubface c v i → IsSubface c v' i' →
  slot (c.vert v) i = wslot (c.vert v') i' → v = v' ∧ i = i'

/-- Mass of water of cell `i` per volume at density `rho` and saturation `S`. -/
def waterPerVolume (por rho S : ℝ) : ℝ := rho*por*S

/-- Energy per volume: water and rock. -/
def energyPerVolume (por rho S u rock T : ℝ) : ℝ := rho*por*S*u + (1 - por)*rock*T

end

end TDy.Mpfao.Spec
