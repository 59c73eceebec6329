import Verif.Model.Curves
import Mathlib.Analysis.SpecialFunctions.Pow.Deriv
import Mathlib.Analysis.SpecialFunctions.Pow.Continuity
import Mathlib.Analysis.SpecialFunctions.ExpDeriv
import Mathlib.Topology.Order.OrderClosed

/-! # Helper lemmas for the saturation curves -/

namespace TDy.Curves.Proofs

open TDy.Curves Filter Topology

theorem vg_pos {m alpha Sr Pc : ℝ} (h : 0 < Pc) :
    vanGenuchten m alpha Sr Pc =
      { S := (1 - Sr)*(1 + (Pc*alpha) ^ (1/(1-m))) ^ (-m) + Sr
        dS := -(-m*(1/(1-m))*alpha*(Pc*alpha) ^ (1/(1-m))
                /(Pc*alpha*(1 + (Pc*alpha) ^ (1/(1-m))) ^ (m+1)))*(1 - Sr)
        d2S := (1 - Sr)*(m*(1/(1-m))*(Pc*alpha) ^ (1/(1-m))
                *(1 + (Pc*alpha) ^ (1/(1-m))) ^ (-m-2)
                *((m*(1/(1-m))+1)*(Pc*alpha) ^ (1/(1-m))-(1/(1-m))+1)/Pc^2) } := by
  have h2 : Pc ^ (2.0:ℝ) = Pc^2 := by
    rw [show (2.0:ℝ) = ((2:ℕ):ℝ) by norm_num, Real.rpow_natCast]
  have h1 : (1.0:ℝ) = 1 := by norm_num
  have h3 : (2.0:ℝ) = 2 := by norm_num
  simp only [vanGenuchten, if_neg (not_le.2 h), h2]
  rw [h1, h3]

theorem vg_nonpos {m alpha Sr Pc : ℝ} (h : Pc ≤ 0) :
    vanGenuchten m alpha Sr Pc = { S := 1, dS := 0, d2S := 0 } := by
  simp only [vanGenuchten, if_pos h]

/-- `u = y^n`, `y^(n-1) = u/y`, `y^(n-2) = u/y^2`. -/
theorem rpow_sub_one' {y : ℝ} (hy : 0 < y) (n : ℝ) : y ^ (n - 1) = y ^ n/y := by
  rw [Real.rpow_sub hy, Real.rpow_one]

/-- First derivative of the effective saturation in capillary pressure. -/
theorem vg_se_hasDerivAt (m alpha n : ℝ) {x : ℝ} (hx : 0 < x) (ha : 0 < alpha) :
    HasDerivAt (fun x => (1 + (x*alpha) ^ n) ^ (-m))
      (-m*n*alpha*(x*alpha) ^ n/(x*alpha*(1 + (x*alpha) ^ n) ^ (m+1))) x := by
  have hy : 0 < x*alpha := mul_pos hx ha
  have hu : 0 < (x*alpha) ^ n := Real.rpow_pos_of_pos hy n
  have hw : 0 < 1 + (x*alpha) ^ n := by linarith
  have d0 : HasDerivAt (fun x : ℝ => x*alpha) alpha x := by
    simpa using (hasDerivAt_id x).mul_const alpha
  have d1 : HasDerivAt (fun x => (x*alpha) ^ n) (alpha*n*(x*alpha) ^ (n-1)) x :=
    d0.rpow_const (Or.inl hy.ne')
  have d2 : HasDerivAt (fun x => 1 + (x*alpha) ^ n) (alpha*n*(x*alpha) ^ (n-1)) x :=
    d1.const_add 1
  have d3 := d2.rpow_const (p := -m) (Or.inl hw.ne')
  convert d3 using 1
  rw [rpow_sub_one' hy, show -m - 1 = -(m+1) by ring, Real.rpow_neg hw.le]
  have : (1 + (x*alpha) ^ n) ^ (m+1) ≠ 0 := (Real.rpow_pos_of_pos hw _).ne'
  field_simp

/-- Second derivative of the effective saturation in capillary pressure. -/
theorem vg_dse_hasDerivAt (m alpha n : ℝ) {x : ℝ} (hx : 0 < x) (ha : 0 < alpha) :
    HasDerivAt (fun x => -m*n*alpha*(x*alpha) ^ n/(x*alpha*(1 + (x*alpha) ^ n) ^ (m+1)))
      (m*n*(x*alpha) ^ n*(1 + (x*alpha) ^ n) ^ (-m-2)*((m*n+1)*(x*alpha) ^ n-n+1)/x^2) x := by
  have hy : 0 < x*alpha := mul_pos hx ha
  have hu : 0 < (x*alpha) ^ n := Real.rpow_pos_of_pos hy n
  have hw : 0 < 1 + (x*alpha) ^ n := by linarith
  have d0 : HasDerivAt (fun x : ℝ => x*alpha) alpha x := by
    simpa using (hasDerivAt_id x).mul_const alpha
  have d1 : HasDerivAt (fun x => (x*alpha) ^ n) (alpha*n*(x*alpha) ^ (n-1)) x :=
    d0.rpow_const (Or.inl hy.ne')
  have d2 : HasDerivAt (fun x => 1 + (x*alpha) ^ n) (alpha*n*(x*alpha) ^ (n-1)) x :=
    d1.const_add 1
  have d3 := d2.rpow_const (p := m+1) (Or.inl hw.ne')
  have hne : x*alpha*(1 + (x*alpha) ^ n) ^ (m+1) ≠ 0 :=
    mul_ne_zero hy.ne' (Real.rpow_pos_of_pos hw _).ne'
  have d4 := (d1.const_mul (-m*n*alpha)).div (d0.mul d3) hne
  refine HasDerivAt.congr_deriv (f := fun x => -m*n*alpha*(x*alpha) ^ n/(x*alpha*(1 + (x*alpha) ^ n) ^ (m+1))) d4 ?_
  have hVpos := Real.rpow_pos_of_pos hw m
  have e1 : (1 + (x*alpha) ^ n) ^ (m+1) = (1 + (x*alpha) ^ n) ^ m*(1 + (x*alpha) ^ n) := by
    rw [Real.rpow_add hw, Real.rpow_one]
  have e2 : (1 + (x*alpha) ^ n) ^ (m+1-1) = (1 + (x*alpha) ^ n) ^ m := by
    congr 1; ring
  have e3 : (1 + (x*alpha) ^ n) ^ (-m-2) =
      ((1 + (x*alpha) ^ n) ^ m)⁻¹*((1 + (x*alpha) ^ n)^2)⁻¹ := by
    rw [show -m-2 = -m + -2 by ring, Real.rpow_add hw, Real.rpow_neg hw.le, Real.rpow_neg hw.le]
    congr 2
    rw [show (2:ℝ) = ((2:ℕ):ℝ) by norm_num, Real.rpow_natCast]
  simp only [Pi.mul_apply]
  rw [e3, e1, e2, rpow_sub_one' hy]
  generalize hU : (x*alpha) ^ n = u at *
  generalize hV : (1 + u) ^ m = V at *
  have hV0 : V ≠ 0 := hVpos.ne'
  have hw0 : 1 + u ≠ 0 := hw.ne'
  have hx0 : x ≠ 0 := hx.ne'
  have ha0 : alpha ≠ 0 := ha.ne'
  field_simp
  ring

/-- The effective saturation has slope 0 at the threshold, from the right. -/
theorem vg_se_zero (m alpha n : ℝ) (hn : 1 < n) :
    HasDerivWithinAt (fun x => (1 + (x*alpha) ^ n) ^ (-m)) 0 (Set.Ici 0) 0 := by
  have d0 : HasDerivAt (fun x : ℝ => x*alpha) alpha 0 := by
    simpa using (hasDerivAt_id (0:ℝ)).mul_const alpha
  have d1 : HasDerivAt (fun x => (x*alpha) ^ n) (alpha*n*((0:ℝ)*alpha) ^ (n-1)) 0 :=
    d0.rpow_const (Or.inr hn.le)
  have e0 : ((0:ℝ)*alpha) ^ (n-1) = 0 := by
    rw [zero_mul]; exact Real.zero_rpow (by linarith)
  rw [e0, mul_zero] at d1
  have d2 : HasDerivAt (fun x => 1 + (x*alpha) ^ n) 0 0 := d1.const_add 1
  have hw : (1 + ((0:ℝ)*alpha) ^ n) ≠ 0 := by
    rw [zero_mul, Real.zero_rpow (by linarith)]; norm_num
  have d3 := d2.rpow_const (p := -m) (Or.inl hw)
  simpa using d3.hasDerivWithinAt

/-- Bounds of the effective saturation. -/
theorem vg_se_bounds {m alpha n x : ℝ} (hm : 0 < m) (hx : 0 < x) (ha : 0 < alpha) :
    0 < (1 + (x*alpha) ^ n) ^ (-m) ∧ (1 + (x*alpha) ^ n) ^ (-m) < 1 := by
  have hu : 0 < (x*alpha) ^ n := Real.rpow_pos_of_pos (mul_pos hx ha) n
  refine ⟨Real.rpow_pos_of_pos (by linarith) _, ?_⟩
  exact Real.rpow_lt_one_of_one_lt_of_neg (by linarith) (by linarith)

/-- Strict monotonicity of the effective saturation. -/
theorem vg_se_anti {m alpha n x y : ℝ} (hm : 0 < m) (hn : 0 < n) (hx : 0 < x) (hxy : x < y)
    (ha : 0 < alpha) :
    (1 + (y*alpha) ^ n) ^ (-m) < (1 + (x*alpha) ^ n) ^ (-m) := by
  have hxa := mul_pos hx ha
  have h1 : x*alpha < y*alpha := mul_lt_mul_of_pos_right hxy ha
  have h2 : (x*alpha) ^ n < (y*alpha) ^ n := Real.rpow_lt_rpow hxa.le h1 hn
  have hu : 0 < (x*alpha) ^ n := Real.rpow_pos_of_pos hxa n
  exact Real.rpow_lt_rpow_of_neg (by linarith) (by linarith) (by linarith)

/-- Derivative in liquid pressure from derivative in capillary pressure. -/
theorem hasDerivAt_of_capillary {f : ℝ → ℝ} {f' Pref P : ℝ} (h : HasDerivAt f f' (Pref - P)) :
    HasDerivAt (fun P => f (Pref - P)) (-f') P := by
  have d : HasDerivAt (fun P : ℝ => Pref - P) (-1) P := by
    simpa using (hasDerivAt_id P).const_sub Pref
  have := HasDerivAt.comp P h d
  simpa [Function.comp_def] using this

end TDy.Curves.Proofs
