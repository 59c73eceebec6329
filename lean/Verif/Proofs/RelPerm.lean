import Verif.Model.Curves
import Mathlib.Analysis.SpecialFunctions.Pow.Deriv
import Mathlib.Analysis.SpecialFunctions.Sqrt

/-! # Helper lemmas for the relative permeability curves -/

namespace TDy.Curves.Proofs

open TDy.Curves Filter Topology

theorem one_lit : (1.0:ℝ) = 1 := by norm_num
theorem zero_lit : (0.0:ℝ) = 0 := by norm_num

theorem irmay_lt {m Se : ℝ} (h : Se < 1) :
    irmay m Se = { k := Se ^ m, dk := Se ^ (m-1)*m } := by
  simp only [irmay, one_lit, if_neg (not_le.2 h)]

theorem irmay_ge {m Se : ℝ} (h : 1 ≤ Se) : irmay m Se = { k := 1, dk := 0 } := by
  simp only [irmay, one_lit, zero_lit, if_pos h]

theorem mualem_lt {m Se : ℝ} (h : Se < 1) :
    mualemUnsmoothed m Se =
      { k := Real.sqrt Se*(1-(1-Se ^ (1/m)) ^ m)^2
        dk := 0.5*(Real.sqrt Se*(1-(1-Se ^ (1/m)) ^ m)^2)/Se
          + 2*Se ^ (1/m-0.5)*(1-Se ^ (1/m)) ^ (m-1)*(1-(1-Se ^ (1/m)) ^ m) } := by
  simp only [mualemUnsmoothed, one_lit, if_neg (not_le.2 h)]

theorem mualem_ge {m Se : ℝ} (h : 1 ≤ Se) : mualemUnsmoothed m Se = { k := 1, dk := 0 } := by
  simp only [mualemUnsmoothed, one_lit, zero_lit, if_pos h]

/-- `0 ≤ Se^(1/m) ≤ 1` and the factor `1 - (1 - Se^(1/m))^m` lies in `[0,1]`. -/
theorem mualem_factor {m Se : ℝ} (hm : 0 < m) (h0 : 0 ≤ Se) (h1 : Se < 1) :
    0 ≤ Se ^ (1/m) ∧ Se ^ (1/m) < 1 ∧
      0 ≤ 1-(1-Se ^ (1/m)) ^ m ∧ 1-(1-Se ^ (1/m)) ^ m ≤ 1 := by
  have hm' : 0 < 1/m := by positivity
  have a0 : 0 ≤ Se ^ (1/m) := Real.rpow_nonneg h0 _
  have a1 : Se ^ (1/m) < 1 := Real.rpow_lt_one h0 h1 hm'
  have b0 : 0 ≤ (1-Se ^ (1/m)) ^ m := Real.rpow_nonneg (by linarith) _
  have b1 : (1-Se ^ (1/m)) ^ m ≤ 1 := Real.rpow_le_one (by linarith) (by linarith) hm.le
  exact ⟨a0, a1, by linarith, by linarith⟩

theorem mualem_factor_mono {m s t : ℝ} (hm : 0 < m) (h0 : 0 ≤ s) (hst : s ≤ t) (h1 : t < 1) :
    1-(1-s ^ (1/m)) ^ m ≤ 1-(1-t ^ (1/m)) ^ m := by
  have hm' : 0 ≤ 1/m := by positivity
  have h2 : s ^ (1/m) ≤ t ^ (1/m) := Real.rpow_le_rpow h0 hst hm'
  have h3 := (mualem_factor hm (h0.trans hst) h1).2.1
  have : (1-t ^ (1/m)) ^ m ≤ (1-s ^ (1/m)) ^ m :=
    Real.rpow_le_rpow (by linarith) (by linarith) hm.le
  linarith

theorem irmay_hasDerivAt {m Se : ℝ} (h0 : 0 < Se) (h1 : Se < 1) :
    HasDerivAt (fun s => (irmay m s).k) (irmay m Se).dk Se := by
  have d : HasDerivAt (fun s : ℝ => s ^ m) (m*Se ^ (m-1)) Se :=
    Real.hasDerivAt_rpow_const (Or.inl h0.ne')
  rw [irmay_lt h1]
  have e : (fun s => (irmay m s).k) =ᶠ[𝓝 Se] (fun s : ℝ => s ^ m) := by
    filter_upwards [gt_mem_nhds h1] with s hs
    rw [irmay_lt hs]
  exact (by simpa [mul_comm] using d : HasDerivAt (fun s : ℝ => s ^ m) (Se ^ (m-1)*m) Se
    ).congr_of_eventuallyEq e

theorem mualem_hasDerivAt {m Se : ℝ} (hm : 0 < m) (h0 : 0 < Se) (h1 : Se < 1) :
    HasDerivAt (fun s => (mualemUnsmoothed m s).k) (mualemUnsmoothed m Se).dk Se := by
  have e : (fun s => (mualemUnsmoothed m s).k) =ᶠ[𝓝 Se]
      (fun s : ℝ => Real.sqrt s*(1-(1-s ^ (1/m)) ^ m)^2) := by
    filter_upwards [gt_mem_nhds h1] with s hs
    rw [mualem_lt hs]
  refine HasDerivAt.congr_of_eventuallyEq ?_ e
  rw [mualem_lt h1]
  obtain ⟨-, a1, -, -⟩ := mualem_factor hm h0.le h1
  have hb : 0 < 1-Se ^ (1/m) := by linarith
  have d1 : HasDerivAt (fun s : ℝ => s ^ (1/m)) (1/m*Se ^ (1/m-1)) Se :=
    Real.hasDerivAt_rpow_const (Or.inl h0.ne')
  have d2 : HasDerivAt (fun s : ℝ => 1 - s ^ (1/m)) (-(1/m*Se ^ (1/m-1))) Se :=
    d1.const_sub 1
  have d3 := d2.rpow_const (p := m) (Or.inl hb.ne')
  have d4 := (d3.const_sub 1).pow 2
  have d5 := (Real.hasDerivAt_sqrt h0.ne').mul d4
  refine HasDerivAt.congr_deriv
    (f := fun s : ℝ => Real.sqrt s*(1-(1-s ^ (1/m)) ^ m)^2) d5 ?_
  simp only [Pi.pow_apply]
  have hs : 0 < Real.sqrt Se := Real.sqrt_pos.2 h0
  have hss : Real.sqrt Se*Real.sqrt Se = Se := Real.mul_self_sqrt h0.le
  have e1 : Se ^ (1/m-0.5) = Se ^ (1/m-1)*Real.sqrt Se := by
    rw [Real.sqrt_eq_rpow, ← Real.rpow_add h0]; congr 1; norm_num; ring
  rw [e1]
  have hhalf : (0.5:ℝ) = 1/2 := by norm_num
  rw [hhalf]
  have hm0 : m ≠ 0 := hm.ne'
  generalize (1-Se ^ (1/m)) ^ m = T
  generalize (1-Se ^ (1/m)) ^ (m-1) = U
  generalize Se ^ (1/m-1) = W
  have hdiv : 1/2*(Real.sqrt Se*(1-T)^2)/Se = 1/(2*Real.sqrt Se)*(1-T)^2 := by
    rw [div_eq_iff h0.ne']
    nth_rewrite 3 [← hss]
    field_simp
  rw [hdiv]
  field_simp
  norm_num
  ring

end TDy.Curves.Proofs
