import Verif.Proofs.Cubic
import Mathlib.Analysis.Calculus.Deriv.MeanValue
import Mathlib.Analysis.Convex.SpecificFunctions.Basic

/-! # The smoothed Mualem curve stays between its end values -/

namespace TDy.Curves.Proofs

open TDy.Curves

/-- Hermite form of the derivative of a cubic. -/
theorem cubic_hermite (c : Fin 4 → ℝ) {x x0 x1 x2 dx : ℝ} (hx : x1 ≠ x2) (hdx : dx ≠ 0) :
    (cubicEvaluate c x x0 dx).dk*(x2-x1)^3 =
      6*(x-x1)*(x2-x)*((cubicEvaluate c x2 x0 dx).k - (cubicEvaluate c x1 x0 dx).k)
      + (x2-x)*(x2+2*x1-3*x)*(x2-x1)*(cubicEvaluate c x1 x0 dx).dk
      + (x-x1)*(3*x-2*x2-x1)*(x2-x1)*(cubicEvaluate c x2 x0 dx).dk := by
  simp only [cubicEvaluate]
  have : x2 - x1 ≠ 0 := sub_ne_zero.2 hx.symm
  norm_num
  field_simp
  ring

/-- A cubic that rises from `f1` with slope `0 ≤ d ≤ 3(f2-f1)/h` to `f2` with slope 0 is
monotone in between. -/
theorem cubic_monotone (c : Fin 4 → ℝ) {x0 x1 x2 dx : ℝ} (hx : x1 < x2) (hdx : dx ≠ 0)
    (hd0 : 0 ≤ (cubicEvaluate c x1 x0 dx).dk) (hd2 : (cubicEvaluate c x2 x0 dx).dk = 0)
    (hd1 : (cubicEvaluate c x1 x0 dx).dk*(x2-x1) ≤
      3*((cubicEvaluate c x2 x0 dx).k - (cubicEvaluate c x1 x0 dx).k)) :
    MonotoneOn (fun x => (cubicEvaluate c x x0 dx).k) (Set.Icc x1 x2) := by
  apply monotoneOn_of_deriv_nonneg (convex_Icc x1 x2)
  · intro x _; exact (cubic_hasDerivAt c x x0 dx).continuousAt.continuousWithinAt
  · intro x _; exact (cubic_hasDerivAt c x x0 dx).differentiableAt.differentiableWithinAt
  · intro x hxi
    rw [interior_Icc] at hxi
    rw [(cubic_hasDerivAt c x x0 dx).deriv]
    have hh : 0 < x2 - x1 := by linarith
    have key := cubic_hermite c (x := x) (x0 := x0) hx.ne hdx
    rw [hd2] at key
    have h1 : 0 < x - x1 := by linarith [hxi.1]
    have h2 : 0 < x2 - x := by linarith [hxi.2]
    generalize (cubicEvaluate c x1 x0 dx).dk = d at *
    generalize (cubicEvaluate c x2 x0 dx).k - (cubicEvaluate c x1 x0 dx).k = D at *
    have : 0 ≤ (cubicEvaluate c x x0 dx).dk*(x2-x1)^3 := by
      rw [key]
      have a : 0 ≤ (x-x1)*(x2-x)*(3*D - d*(x2-x1)) :=
        mul_nonneg (mul_pos h1 h2).le (by linarith)
      have b : 0 ≤ (x2-x)*(x2-x)*(x2-x1)*d :=
        mul_nonneg (by positivity) hd0
      nlinarith
    exact nonneg_of_mul_nonneg_left this (by positivity)

/-- `1 - q^m ≤ m q^(m-1) (1-q)` for `0 < q < 1`, `0 < m ≤ 1`. -/
theorem one_sub_rpow_le {q m : ℝ} (hq : 0 < q) (hm0 : 0 < m) (hm1 : m ≤ 1) :
    1 - q ^ m ≤ m*q ^ (m-1)*(1-q) := by
  -- Bernoulli with s = 1/q - 1
  have h := rpow_one_add_le_one_add_mul_self (s := 1/q - 1)
    (by have : 0 < 1/q := by positivity
        linarith) hm0.le hm1
  have e : 1 + (1/q - 1) = 1/q := by ring
  rw [e, one_div, Real.inv_rpow hq.le] at h
  have hp : 0 < q ^ m := Real.rpow_pos_of_pos hq m
  have h2 : 1 ≤ (1 + m*(q⁻¹ - 1))*q ^ m := by
    have := mul_le_mul_of_nonneg_right h hp.le
    rwa [inv_mul_cancel₀ hp.ne'] at this
  have e2 : q ^ (m-1) = q ^ m*q⁻¹ := by
    rw [Real.rpow_sub hq, Real.rpow_one, div_eq_mul_inv]
  rw [e2]
  have e3 : m*(q ^ m*q⁻¹)*(1-q) = m*(q⁻¹-1)*q ^ m := by
    field_simp
  rw [e3]
  linarith

/-- The slope of the unsmoothed Mualem curve times the distance to saturation. -/
theorem mualem_slope {m S : ℝ} (hm0 : 0 < m) (hm1 : m < 1) (hS : 1/25 ≤ S) (hS1 : S < 1) :
    0 ≤ (mualemUnsmoothed m S).dk ∧
      (mualemUnsmoothed m S).dk*(1-S) ≤ 3*(1 - (mualemUnsmoothed m S).k) := by
  have hS0 : 0 < S := by linarith
  rw [mualem_lt hS1]
  simp only
  obtain ⟨q0, q1, f0, f1⟩ := mualem_factor hm0 hS0.le hS1
  have hq : 0 < S ^ (1/m) := Real.rpow_pos_of_pos hS0 _
  have hqm : (S ^ (1/m)) ^ m = S := by
    rw [← Real.rpow_mul hS0.le, one_div, inv_mul_cancel₀ hm0.ne', Real.rpow_one]
  have hb : 0 < 1 - S ^ (1/m) := by linarith
  have hs : 0 < Real.sqrt S := Real.sqrt_pos.2 hS0
  have hss : Real.sqrt S*Real.sqrt S = S := Real.mul_self_sqrt hS0.le
  have hs1 : Real.sqrt S < 1 := by
    rw [Real.sqrt_lt' one_pos]; linarith
  have hs5 : 1/5 ≤ Real.sqrt S := by
    apply Real.le_sqrt_of_sq_le
    norm_num
    linarith
  have bern := one_sub_rpow_le hq hm0 hm1.le
  rw [hqm] at bern
  -- S^(1/m - 1/2) = q / sqrt S
  have e1 : S ^ (1/m-0.5) = S ^ (1/m)/Real.sqrt S := by
    rw [Real.rpow_sub hS0, Real.sqrt_eq_rpow]; norm_num
  have e2 : (1-S ^ (1/m)) ^ (m-1) = (1-S ^ (1/m)) ^ m/(1-S ^ (1/m)) := by
    rw [Real.rpow_sub hb, Real.rpow_one]
  have e3 : (S ^ (1/m)) ^ (m-1) = S/S ^ (1/m) := by
    rw [Real.rpow_sub hq, Real.rpow_one, hqm]
  rw [e3] at bern
  have ht0 : 0 < (1-S ^ (1/m)) ^ m := Real.rpow_pos_of_pos hb _
  rw [e1, e2]
  generalize S ^ (1/m) = q at *
  generalize (1-q) ^ m = t at *
  have hhalf : (0.5:ℝ) = 1/2 := by norm_num
  rw [hhalf]
  constructor
  · have : 0 ≤ 2*(q/Real.sqrt S)*(t/(1-q))*(1-t) := by positivity
    have : 0 ≤ 1/2*(Real.sqrt S*(1-t)^2)/S := by positivity
    linarith
  · -- second term
    have second : 2*(q/Real.sqrt S)*(t/(1-q))*(1-t)*(1-S) ≤ 2*m*Real.sqrt S*t*(1-t) := by
      have h1 : 2*(q/Real.sqrt S)*(t/(1-q))*(1-t)*(1-S) ≤
          2*(q/Real.sqrt S)*(t/(1-q))*(1-t)*(m*(S/q)*(1-q)) :=
        mul_le_mul_of_nonneg_left bern (by positivity)
      refine h1.trans (le_of_eq ?_)
      nth_rewrite 2 [← hss]
      field_simp
    have first : 1/2*(Real.sqrt S*(1-t)^2)/S*(1-S) ≤ 3*(1-Real.sqrt S) := by
      have e : 1/2*(Real.sqrt S*(1-t)^2)/S*(1-S) =
          (1/2*((1-t)^2)*(1+Real.sqrt S)/Real.sqrt S)*(1-Real.sqrt S) := by
        have e' : 1 - S = (1 - Real.sqrt S)*(1 + Real.sqrt S) := by nlinarith
        rw [e']
        nth_rewrite 2 [← hss]
        field_simp
      rw [e]
      apply mul_le_mul_of_nonneg_right _ (by linarith)
      rw [div_le_iff₀ hs]
      have : (1-t)^2 ≤ 1 := by nlinarith
      nlinarith
    have hfin : 2*m*Real.sqrt S*t*(1-t) ≤ 3*(Real.sqrt S*(2*t-t^2)) := by
      have h1 : 2*t*(1-t) ≤ 2*t - t^2 := by nlinarith
      have h2 : m*(2*t*(1-t)) ≤ 1*(2*t*(1-t)) :=
        mul_le_mul_of_nonneg_right hm1.le (by positivity)
      have h3 : m*(2*t*(1-t)) ≤ 3*(2*t-t^2) := by nlinarith
      calc 2*m*Real.sqrt S*t*(1-t) = Real.sqrt S*(m*(2*t*(1-t))) := by ring
        _ ≤ Real.sqrt S*(3*(2*t-t^2)) := mul_le_mul_of_nonneg_left h3 hs.le
        _ = 3*(Real.sqrt S*(2*t-t^2)) := by ring
    calc (1/2*(Real.sqrt S*(1-t)^2)/S + 2*(q/Real.sqrt S)*(t/(1-q))*(1-t))*(1-S)
        = 1/2*(Real.sqrt S*(1-t)^2)/S*(1-S) + 2*(q/Real.sqrt S)*(t/(1-q))*(1-t)*(1-S) := by ring
      _ ≤ 3*(1-Real.sqrt S) + 3*(Real.sqrt S*(2*t-t^2)) := by linarith
      _ = 3*(1-Real.sqrt S*(1-t)^2) := by ring

end TDy.Curves.Proofs
