import Verif.Props.MpfaoThAccum

/-!
C129: the matrix `TDyMPFAOIJacobian_TH` hands to the solver, flux part and accumulation part together.
What it adds to the blocks of the fluxes is the derivative of the accumulation part of the residual,
with the rate of the pressure and the rate of the temperature in their roles.
-/

namespace TDy.Mpfao.Props
open TDy.Mpfao TDy.Mpfao.Spec TDy.Mpfao.Proofs
open TDy.Fvtpf (Side)

noncomputable section

/-- The blocks before the accumulation: those of the fluxes (tdympfao_th_ts.c 868). -/
def fluxBlocks (t : Th) : Nat → Nat → Block := thJacobianVertices t fun _ _ => ⟨0, 0, 0, 0⟩

theorem accum_from (t : Th) (dpdt dTdt : Nat → ℝ) (shift : ℝ) (A : Nat → Nat → Block) (j i : Nat) :
    let B := thJacobianAccum t dpdt dTdt shift A j i
    let Z := thJacobianAccum t dpdt dTdt shift (fun _ _ => ⟨0, 0, 0, 0⟩) j i
    Z.mP = B.mP - (A j i).mP ∧ Z.mT = B.mT - (A j i).mT ∧ Z.eP = B.eP - (A j i).eP ∧
      Z.eT = B.eT - (A j i).eT := by
  intro B Z
  simp only [B, Z, accum_apply]
  by_cases h : j = i ∧ i < t.base.numCells ∧ t.base.isLocal i = true
  · obtain ⟨rfl, _⟩ := h
    rw [if_pos ⟨rfl, by assumption⟩, if_pos ⟨rfl, by assumption⟩, addBlock_at, addBlock_at,
      if_pos ⟨rfl, rfl⟩, if_pos ⟨rfl, rfl⟩]
    refine ⟨?_, ?_, ?_, ?_⟩ <;> ring
  · rw [if_neg h, if_neg h]
    refine ⟨?_, ?_, ?_, ?_⟩ <;> ring

/-- Pressure columns of the whole matrix. -/
theorem C129_whole_pressure_partial (t : Th) (s : Nat → ℝ → Side) (hp : Nat → ℝ → Heat)
    (U dpdt dTdt : Nat → ℝ) (shift : ℝ) (i j : Nat) (hi : i < t.base.numCells)
    (hj : j < t.base.numCells) (hl : ∀ k < t.base.numCells, t.base.isLocal k = true)
    (hc : CellP t (s i) (hp i) i (U i)) :
    let F := fun x => thCellLoop (thAt t s hp (wr U i x)) (rateAt dpdt shift U i x) dTdt (fun _ => 0)
    let J := thJacobian (thAt t s hp U) dpdt dTdt shift j i
    let J0 := fluxBlocks (thAt t s hp U) j i
    HasDerivAt (fun x => F x (2*j)) (J.mP - J0.mP) (U i) ∧
    (EnergyP (hp i) (U i) → HasDerivAt (fun x => F x (2*j + 1)) (J.eP - J0.eP) (U i)) := by
  intro F J J0
  have h := C129_pressure_columns_partial t s hp U dpdt dTdt shift i j hi hj hl hc
  have e := accum_from (thAt t s hp U) dpdt dTdt shift (fluxBlocks (thAt t s hp U)) j i
  exact ⟨h.1.congr_deriv e.1, fun hu => (h.2 hu).congr_deriv e.2.2.1⟩

/-- Temperature columns of the whole matrix. -/
theorem C129_whole_temperature_partial (t : Th) (s : Nat → ℝ → Side) (hp : Nat → ℝ → Heat)
    (U dpdt dTdt : Nat → ℝ) (shift : ℝ) (i j : Nat) (hi : i < t.base.numCells)
    (hj : j < t.base.numCells) (hl : ∀ k < t.base.numCells, t.base.isLocal k = true)
    (hc : CellT (s i) (hp i) (U i)) :
    let F := fun x => thCellLoop (thAt t s hp (wr U i x)) dpdt (rateAt dTdt shift U i x) (fun _ => 0)
    let J := thJacobian (thAt t s hp U) dpdt dTdt shift j i
    let J0 := fluxBlocks (thAt t s hp U) j i
    HasDerivAt (fun x => F x (2*j)) (J.mT - J0.mT) (U i) ∧
    (EnergyT (hp i) (U i) → HasDerivAt (fun x => F x (2*j + 1)) (J.eT - J0.eT) (U i)) := by
  intro F J J0
  have h := C129_temperature_columns_partial t s hp U dpdt dTdt shift i j hi hj hl hc
  have e := accum_from (thAt t s hp U) dpdt dTdt shift (fluxBlocks (thAt t s hp U)) j i
  exact ⟨h.1.congr_deriv e.2.1, fun hu => (h.2 hu).congr_deriv e.2.2.2⟩

/-- The porous cell of `C129_pressure_columns_partial`: at pressure 5, rate 3 and shift 2 the whole
matrix has 56 more than the flux blocks, and this is the derivative of the accumulation. -/
example : HasDerivAt (fun x => thCellLoop (thAt HeatWitness.t (fun _ => wState) hpC (wr wU 0 x))
      (rateAt (fun _ => 3) 2 wU 0 x) (fun _ => 4) (fun _ => 0) (2*0))
    ((thJacobian (thAt HeatWitness.t (fun _ => wState) hpC wU) (fun _ => 3) (fun _ => 4) 2 0 0).mP
      - (fluxBlocks (thAt HeatWitness.t (fun _ => wState) hpC wU) 0 0).mP) (wU 0) :=
  (C129_whole_pressure_partial HeatWitness.t (fun _ => wState) hpC wU (fun _ => 3) (fun _ => 4) 2 0 0
    (by decide) (by decide) (fun _ _ => rfl) (cellP_witness _).1).1

end

end TDy.Mpfao.Props
