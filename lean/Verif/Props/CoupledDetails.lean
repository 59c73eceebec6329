import Verif.Model.MpfaoCoupled
import Mathlib.Analysis.Calculus.Deriv.Inv
import Mathlib.Analysis.Calculus.Deriv.Comp
import Mathlib.Analysis.Calculus.Deriv.Pow

/-!
# C53, C54, C98: what the boundary gives to the salt and energy fluxes, and the mobility
-/

namespace TDy.Mpfao.Props

open TDy TDy.Mpfao Finset

/-- C53: dispersion is driven by the concentrations of the cells and by those of the boundary faces,
each with the entry of its own column. -/
theorem C53_boundary_concentration (s : Sal) (v i : Nat) :
    let f := s.base.face ((s.base.vert v).face i)
    let row := slot (s.base.vert v) i
    let TP := ttimesP s.base row
    salFluxt s v i = denAvg s.base f*(ukvrTP s.base f TP*(-TP)) - denAvg s.base f*
      (∑ j ∈ range s.base.numCells, psiMat s row j*s.psi j +
        ∑ b ∈ range s.base.numBnd, psiMat s row (s.base.numCells + b)*s.psiBnd b) := by
  intro f row TP
  unfold salFluxt ttimesPsi
  rw [sum_range_add]
  dsimp only
  congr 3
  · refine sum_congr rfl fun j hj => ?_
    rw [psiVec, if_pos (mem_range.1 hj)]
  · refine sum_congr rfl fun b _ => ?_
    rw [psiVec, if_neg (by omega), Nat.add_sub_cancel_left]

/-- C54: the water that flows from the up side of a face to the down side carries the enthalpy of the
up side, that in the other direction the one of the down side; the side is a cell or boundary face
number `b`, which is written `-b - 1`. -/
theorem C54_carried_enthalpy (t : Th) (v i : Nat) :
    let f := t.base.face ((t.base.vert v).face i)
    (thTP t v i < 0 → ∀ c : Nat, f.up = c →
      thFluxe t v i = thFluxm t v i*(t.heat c).h - thTempTP t v i) ∧
    (thTP t v i < 0 → ∀ b : Nat, f.up = -(b : ℤ) - 1 →
      thFluxe t v i = thFluxm t v i*t.hBnd b - thTempTP t v i) ∧
    (0 ≤ thTP t v i → ∀ c : Nat, f.dn = c →
      thFluxe t v i = thFluxm t v i*(t.heat c).h - thTempTP t v i) ∧
    (0 ≤ thTP t v i → ∀ b : Nat, f.dn = -(b : ℤ) - 1 →
      thFluxe t v i = thFluxm t v i*t.hBnd b - thTempTP t v i) := by
  intro f
  have z : (0.0 : ℝ) = 0 := by norm_num
  have e : thFluxe t v i = thFluxm t v i*uhTP t f (thTP t v i) - thTempTP t v i := by
    unfold thFluxe thFluxm
    ring
  have hc : ∀ c : Nat, hSide t c = (t.heat c).h := fun c => by
    unfold hSide
    rw [if_pos (by omega), Int.toNat_natCast]
  have hb : ∀ b : Nat, hSide t (-(b : ℤ) - 1) = t.hBnd b := fun b => by
    unfold hSide
    rw [if_neg (by omega), show (-(-(b : ℤ) - 1) - 1) = b by ring, Int.toNat_natCast]
  rw [e]
  refine ⟨fun h c k => ?_, fun h b k => ?_, fun h c k => ?_, fun h b k => ?_⟩
  · rw [uhTP, z, if_pos h, k, hc]
  · rw [uhTP, z, if_pos h, k, hb]
  · rw [uhTP, z, if_neg (not_lt.2 h), k, hc]
  · rw [uhTP, z, if_neg (not_lt.2 h), k, hb]

/-- C98: the derivative used for the mobility of a cell is its derivative with respect to the
temperature, if the stored derivatives are those of saturation, relative permeability and viscosity. -/
theorem C98_mobility (c : Fvtpf.Side) (h : Heat) (S kr vis : ℝ → ℝ) (T : ℝ)
    (hS : HasDerivAt S h.dSdT T) (hk : HasDerivAt kr c.dKrdS (S T))
    (hv : HasDerivAt vis h.dvisdT T) (ek : c.Kr = kr (S T)) (ev : c.vis = vis T)
    (pos : vis T ≠ 0) : HasDerivAt (fun x => kr (S x)/vis x) (dukvrT c h) T := by
  refine ((hk.comp T hS).div hv pos).congr_deriv ?_
  unfold dukvrT
  rw [ek, ev, Function.comp_apply]
  field_simp

/-- Water that thickens when it is cooled: `S = x`, `kr = S^2` and `vis = 1/x` at `x = 2`. -/
example : ∃ (c : Fvtpf.Side) (h : Heat), dukvrT c h ≠ 0 ∧
    HasDerivAt (fun x : ℝ => x^2/x⁻¹) (dukvrT c h) 2 := by
  refine ⟨⟨0, 2, 4, 1/2, 0, 0, 4, 0, 0⟩, ⟨0, 0, 0, 0, 0, 0, 0, 1, -1/4, 0, 0, 0, 0⟩, ?_, ?_⟩
  · norm_num [dukvrT]
  · refine C98_mobility _ _ (fun x => x) (fun x => x^2) (fun x => x⁻¹) 2 (hasDerivAt_id 2) ?_ ?_ ?_ ?_
      (by norm_num)
    · exact (hasDerivAt_pow 2 (2:ℝ)).congr_deriv (by norm_num)
    · exact (hasDerivAt_inv (show (2:ℝ) ≠ 0 by norm_num)).congr_deriv (by norm_num)
    · norm_num
    · norm_num

end TDy.Mpfao.Props
