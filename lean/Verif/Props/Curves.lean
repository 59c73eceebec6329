import Verif.Proofs.VanGenuchten
import Verif.Proofs.Smoothing

/-!
# C12-C17, C82: saturation and relative permeability curves

`Pref - P` is the capillary pressure at liquid pressure `P` (the callers compute it so, for
example src/fv/mpfao/tdympfao.c:2550).
-/

namespace TDy.Curves.Props

open TDy.Curves TDy.Curves.Proofs Filter Topology

/-! ## C12 : van Genuchten saturation -/

/-- Bounds, and saturation 1 exactly at non-positive capillary pressure. -/
theorem C12_bounds {m alpha Sr Pc : ℝ} (hm0 : 0 < m) (ha : 0 < alpha) (hS1 : Sr < 1) :
    Sr < (vanGenuchten m alpha Sr Pc).S ∧ (vanGenuchten m alpha Sr Pc).S ≤ 1 ∧
      ((vanGenuchten m alpha Sr Pc).S = 1 ↔ Pc ≤ 0) := by
  rcases le_or_gt Pc 0 with h | h
  · rw [vg_nonpos h]; exact ⟨hS1, le_refl _, by simp [h]⟩
  · obtain ⟨b0, b1⟩ := vg_se_bounds (n := 1/(1-m)) hm0 h ha
    rw [vg_pos h]
    simp only
    have h1 : 0 < 1 - Sr := by linarith
    have h2 : (1-Sr)*(1 + (Pc*alpha) ^ (1/(1-m))) ^ (-m) < 1 - Sr := by nlinarith
    have h3 := mul_pos h1 b0
    refine ⟨by linarith, by linarith, ?_⟩
    constructor
    · intro e; linarith
    · intro e; linarith

/-- Strictly decreasing for positive capillary pressure. -/
theorem C12_strictly_decreasing {m alpha Sr : ℝ} (hm0 : 0 < m) (hm1 : m < 1) (ha : 0 < alpha)
    (hS1 : Sr < 1) {x y : ℝ} (hx : 0 ≤ x) (hxy : x < y) :
    (vanGenuchten m alpha Sr y).S < (vanGenuchten m alpha Sr x).S := by
  have h1 : 0 < 1 - Sr := by linarith
  rcases hx.eq_or_lt with h | h
  · subst h
    have hb := (C12_bounds (Pc := y) hm0 ha hS1).2
    rw [vg_nonpos le_rfl]
    exact lt_of_le_of_ne hb.1 (fun e => absurd (hb.2.1 e) (not_le.2 hxy))
  · have hy : 0 < y := h.trans hxy
    have hn : 0 < 1/(1-m) := by
      have : 0 < 1 - m := by linarith
      positivity
    have := vg_se_anti (n := 1/(1-m)) hm0 hn h hxy ha
    rw [vg_pos h, vg_pos hy]
    simp only
    have := mul_lt_mul_of_pos_left this h1
    linarith

/-- Non-vacuity of C12. -/
example : (0:ℝ) < 1/2 ∧ (1/2:ℝ) < 1 ∧ (0:ℝ) < 1e-4 ∧ (0.1:ℝ) < 1 := by norm_num

/-! ## C13 : van Genuchten derivatives -/

/-- The first derivative, at every liquid pressure including the threshold. -/
theorem C13_first_derivative {m alpha Sr Pref : ℝ} (hm0 : 0 < m) (hm1 : m < 1) (ha : 0 < alpha)
    (P : ℝ) :
    HasDerivAt (fun P => (vanGenuchten m alpha Sr (Pref - P)).S)
      (vanGenuchten m alpha Sr (Pref - P)).dS P := by
  have hn : 1 < 1/(1-m) := by
    rw [lt_div_iff₀ (by linarith)]; linarith
  have key : HasDerivAt (fun x => (vanGenuchten m alpha Sr x).S)
      (-(vanGenuchten m alpha Sr (Pref - P)).dS) (Pref - P) := by
    rcases lt_trichotomy (Pref - P) 0 with h | h | h
    · have e : (fun x => (vanGenuchten m alpha Sr x).S) =ᶠ[𝓝 (Pref - P)] fun _ => 1 := by
        filter_upwards [gt_mem_nhds h] with x hx
        rw [vg_nonpos hx.le]
      rw [vg_nonpos h.le, neg_zero]
      exact (hasDerivAt_const _ _).congr_of_eventuallyEq e
    · rw [h, vg_nonpos le_rfl, neg_zero]
      have hr : HasDerivWithinAt (fun x => (vanGenuchten m alpha Sr x).S) 0 (Set.Ici 0) 0 := by
        have d := ((vg_se_zero m alpha (1/(1-m)) hn).const_mul (1-Sr)).add_const Sr
        rw [mul_zero] at d
        refine d.congr ?_ ?_
        · intro x hx
          rcases (Set.mem_Ici.1 hx).eq_or_lt with h0 | h0
          · subst h0
            rw [vg_nonpos le_rfl]
            have : 1/(1-m) ≠ 0 := by linarith
            simp [Real.zero_rpow (by simpa using this : (1-m)⁻¹ ≠ 0)]
          · rw [vg_pos h0]
        · rw [vg_nonpos le_rfl]
          have : 1/(1-m) ≠ 0 := by linarith
          simp [Real.zero_rpow (by simpa using this : (1-m)⁻¹ ≠ 0)]
      have hl : HasDerivWithinAt (fun x => (vanGenuchten m alpha Sr x).S) 0 (Set.Iic 0) 0 := by
        refine (hasDerivWithinAt_const (0:ℝ) (Set.Iic (0:ℝ)) (1:ℝ)).congr ?_ ?_
        · intro x hx; rw [vg_nonpos hx]
        · rw [vg_nonpos le_rfl]
      have := hl.union hr
      rw [Set.Iic_union_Ici] at this
      exact hasDerivWithinAt_univ.1 this
    · have e : (fun x => (vanGenuchten m alpha Sr x).S) =ᶠ[𝓝 (Pref - P)]
          fun x => (1 - Sr)*(1 + (x*alpha) ^ (1/(1-m))) ^ (-m) + Sr := by
        filter_upwards [lt_mem_nhds h] with x hx
        rw [vg_pos hx]
      have d := ((vg_se_hasDerivAt m alpha (1/(1-m)) h ha).const_mul (1-Sr)).add_const Sr
      refine (HasDerivAt.congr_deriv d ?_).congr_of_eventuallyEq e
      rw [vg_pos h]; ring
  have := hasDerivAt_of_capillary key
  rwa [neg_neg] at this

/-- The second derivative, at every liquid pressure other than the threshold. -/
theorem C13_second_derivative {m alpha Sr Pref : ℝ} (ha : 0 < alpha)
    (P : ℝ) (hP : Pref - P ≠ 0) :
    HasDerivAt (fun P => (vanGenuchten m alpha Sr (Pref - P)).dS)
      (vanGenuchten m alpha Sr (Pref - P)).d2S P := by
  have key : HasDerivAt (fun x => (vanGenuchten m alpha Sr x).dS)
      (-(vanGenuchten m alpha Sr (Pref - P)).d2S) (Pref - P) := by
    rcases lt_or_gt_of_ne hP with h | h
    · have e : (fun x => (vanGenuchten m alpha Sr x).dS) =ᶠ[𝓝 (Pref - P)] fun _ => 0 := by
        filter_upwards [gt_mem_nhds h] with x hx
        rw [vg_nonpos hx.le]
      rw [vg_nonpos h.le, neg_zero]
      exact (hasDerivAt_const _ _).congr_of_eventuallyEq e
    · have e : (fun x => (vanGenuchten m alpha Sr x).dS) =ᶠ[𝓝 (Pref - P)]
          fun x => -(-m*(1/(1-m))*alpha*(x*alpha) ^ (1/(1-m))
                /(x*alpha*(1 + (x*alpha) ^ (1/(1-m))) ^ (m+1)))*(1 - Sr) := by
        filter_upwards [lt_mem_nhds h] with x hx
        rw [vg_pos hx]
      have d := ((vg_dse_hasDerivAt m alpha (1/(1-m)) h ha).neg).mul_const (1-Sr)
      refine (HasDerivAt.congr_deriv d ?_).congr_of_eventuallyEq e
      rw [vg_pos h]; ring
  have := hasDerivAt_of_capillary key
  rwa [neg_neg] at this

/-- Non-vacuity of C13: the derivative is not identically zero. -/
example : (vanGenuchten (1/2) 1 0 1).dS = 1*2*(2:ℝ) ^ (-(3/2:ℝ))/2 := by
  rw [vg_pos one_pos]
  norm_num [Real.rpow_neg]
  ring

/-! ## C14 : Gardner saturation -/

theorem gardner_neg {m alpha Sr Pc : ℝ} (h : Pc < 0) :
    gardner m alpha Sr Pc = { S := 1, dS := 0, d2S := 0 } := by
  simp only [gardner, if_pos h]

theorem gardner_nonneg {m alpha Sr Pc : ℝ} (h : 0 ≤ Pc) :
    gardner m alpha Sr Pc =
      { S := (1 - Sr)*Real.exp (-alpha*Pc/m) + Sr
        dS := -(-alpha/m*Real.exp (-alpha*Pc/m))*(1 - Sr)
        d2S := (1 - Sr)*(-alpha/m*(-alpha/m*Real.exp (-alpha*Pc/m))) } := by
  simp only [gardner, if_neg (not_lt.2 h), one_lit]

/-- Bounds. -/
theorem C14_bounds {m alpha Sr Pc : ℝ} (hm : 0 < m) (ha : 0 < alpha) (hS1 : Sr < 1) :
    Sr < (gardner m alpha Sr Pc).S ∧ (gardner m alpha Sr Pc).S ≤ 1 := by
  rcases lt_or_ge Pc 0 with h | h
  · rw [gardner_neg h]; exact ⟨hS1, le_refl _⟩
  · rw [gardner_nonneg h]
    simp only
    have e0 : 0 < Real.exp (-alpha*Pc/m) := Real.exp_pos _
    have e1 : Real.exp (-alpha*Pc/m) ≤ 1 := by
      rw [Real.exp_le_one_iff]
      apply div_nonpos_of_nonpos_of_nonneg _ hm.le
      nlinarith
    have h1 : 0 < 1 - Sr := by linarith
    have := mul_pos h1 e0
    constructor
    · linarith
    · nlinarith

/-- The saturation never increases with capillary pressure. -/
theorem C14_antitone {m alpha Sr : ℝ} (hm : 0 < m) (ha : 0 < alpha) (hS1 : Sr < 1) :
    Antitone (fun Pc => (gardner m alpha Sr Pc).S) := by
  intro x y hxy
  simp only
  rcases lt_or_ge x 0 with h | h
  · rw [gardner_neg h]; exact (C14_bounds hm ha hS1).2
  · rw [gardner_nonneg h, gardner_nonneg (h.trans hxy)]
    simp only
    have : Real.exp (-alpha*y/m) ≤ Real.exp (-alpha*x/m) := by
      rw [Real.exp_le_exp]
      apply div_le_div_of_nonneg_right _ hm.le
      nlinarith
    have h1 : 0 < 1 - Sr := by linarith
    nlinarith

/-- First and second derivative away from the threshold. -/
theorem C14_derivatives {m alpha Sr Pref : ℝ} (P : ℝ) (hP : Pref - P ≠ 0) :
    HasDerivAt (fun P => (gardner m alpha Sr (Pref - P)).S)
      (gardner m alpha Sr (Pref - P)).dS P ∧
    HasDerivAt (fun P => (gardner m alpha Sr (Pref - P)).dS)
      (gardner m alpha Sr (Pref - P)).d2S P := by
  rcases lt_or_gt_of_ne hP with h | h
  · constructor
    · have e : (fun x => (gardner m alpha Sr x).S) =ᶠ[𝓝 (Pref - P)] fun _ => 1 := by
        filter_upwards [gt_mem_nhds h] with x hx
        rw [gardner_neg hx]
      have d := hasDerivAt_of_capillary
        ((hasDerivAt_const (Pref - P) (1:ℝ)).congr_of_eventuallyEq e)
      rw [gardner_neg h]; simpa using d
    · have e : (fun x => (gardner m alpha Sr x).dS) =ᶠ[𝓝 (Pref - P)] fun _ => 0 := by
        filter_upwards [gt_mem_nhds h] with x hx
        rw [gardner_neg hx]
      have d := hasDerivAt_of_capillary
        ((hasDerivAt_const (Pref - P) (0:ℝ)).congr_of_eventuallyEq e)
      rw [gardner_neg h]; simpa using d
  · have d0 : HasDerivAt (fun x : ℝ => -alpha*x/m) (-alpha/m) (Pref - P) := by
      have := ((hasDerivAt_id (Pref - P)).const_mul (-alpha)).div_const m
      simpa using this
    have d1 := d0.exp
    constructor
    · have e : (fun x => (gardner m alpha Sr x).S) =ᶠ[𝓝 (Pref - P)]
          fun x => (1 - Sr)*Real.exp (-alpha*x/m) + Sr := by
        filter_upwards [lt_mem_nhds h] with x hx
        rw [gardner_nonneg (le_of_lt hx)]
      have d := hasDerivAt_of_capillary
        (((d1.const_mul (1-Sr)).add_const Sr).congr_of_eventuallyEq e)
      refine HasDerivAt.congr_deriv d ?_
      rw [gardner_nonneg h.le]
      ring
    · have e : (fun x => (gardner m alpha Sr x).dS) =ᶠ[𝓝 (Pref - P)]
          fun x => -(-alpha/m*Real.exp (-alpha*x/m))*(1 - Sr) := by
        filter_upwards [lt_mem_nhds h] with x hx
        rw [gardner_nonneg (le_of_lt hx)]
      have d := hasDerivAt_of_capillary
        ((((d1.const_mul (-alpha/m)).neg).mul_const (1-Sr)).congr_of_eventuallyEq e)
      refine HasDerivAt.congr_deriv d ?_
      rw [gardner_nonneg h.le]
      ring

/-- Non-vacuity of C14: a strictly unsaturated value. -/
example : (gardner 2 1 (1/10) 1).S = (1 - 1/10)*Real.exp (-1*1/2) + 1/10 := by
  rw [gardner_nonneg zero_le_one]

/-! ## C15 : relative permeability in [0,1], monotone -/

/-- Irmay. -/
theorem C15_irmay {m : ℝ} (hm : 0 < m) :
    (∀ Se, 0 ≤ Se → 0 ≤ (irmay m Se).k ∧ (irmay m Se).k ≤ 1) ∧
    (irmay m 0).k = 0 ∧ (∀ Se, 1 ≤ Se → (irmay m Se).k = 1) ∧
    MonotoneOn (fun Se => (irmay m Se).k) (Set.Ici 0) := by
  have hb : ∀ Se, 0 ≤ Se → 0 ≤ (irmay m Se).k ∧ (irmay m Se).k ≤ 1 := by
    intro Se h0
    rcases lt_or_ge Se 1 with h | h
    · rw [irmay_lt h]
      exact ⟨Real.rpow_nonneg h0 m, Real.rpow_le_one h0 h.le hm.le⟩
    · rw [irmay_ge h]; norm_num
  refine ⟨hb, ?_, ?_, ?_⟩
  · rw [irmay_lt zero_lt_one]; exact Real.zero_rpow hm.ne'
  · intro Se h; rw [irmay_ge h]
  · intro x hx y hy hxy
    simp only
    rcases lt_or_ge y 1 with h | h
    · rw [irmay_lt h, irmay_lt (lt_of_le_of_lt hxy h)]
      exact Real.rpow_le_rpow hx hxy hm.le
    · rw [irmay_ge h]; exact (hb x hx).2

/-- Unsmoothed Mualem. -/
theorem C15_mualem {m : ℝ} (hm : 0 < m) :
    (∀ Se, 0 ≤ Se → 0 ≤ (mualemUnsmoothed m Se).k ∧ (mualemUnsmoothed m Se).k ≤ 1) ∧
    (mualemUnsmoothed m 0).k = 0 ∧ (∀ Se, 1 ≤ Se → (mualemUnsmoothed m Se).k = 1) ∧
    MonotoneOn (fun Se => (mualemUnsmoothed m Se).k) (Set.Ici 0) := by
  have hb : ∀ Se, 0 ≤ Se → 0 ≤ (mualemUnsmoothed m Se).k ∧ (mualemUnsmoothed m Se).k ≤ 1 := by
    intro Se h0
    rcases lt_or_ge Se 1 with h | h
    · obtain ⟨-, -, f0, f1⟩ := mualem_factor hm h0 h
      rw [mualem_lt h]
      simp only
      have s0 := Real.sqrt_nonneg Se
      have s1 : Real.sqrt Se ≤ 1 := Real.sqrt_le_one.2 h.le
      refine ⟨by positivity, ?_⟩
      have : (1-(1-Se ^ (1/m)) ^ m)^2 ≤ 1 := by nlinarith
      nlinarith
    · rw [mualem_ge h]; norm_num
  refine ⟨hb, ?_, ?_, ?_⟩
  · rw [mualem_lt zero_lt_one]; simp
  · intro Se h; rw [mualem_ge h]
  · intro x hx y hy hxy
    simp only
    rcases lt_or_ge y 1 with h | h
    · obtain ⟨-, -, f0, -⟩ := mualem_factor hm hx (lt_of_le_of_lt hxy h)
      have hf := mualem_factor_mono hm hx hxy h
      rw [mualem_lt h, mualem_lt (lt_of_le_of_lt hxy h)]
      simp only
      apply mul_le_mul (Real.sqrt_le_sqrt hxy) _ (by positivity) (Real.sqrt_nonneg _)
      exact pow_le_pow_left₀ f0 hf 2
    · rw [mualem_ge h]; exact (hb x hx).2

/-- Non-vacuity of C15. -/
example : (irmay 2 (1/2)).k = 1/4 := by
  rw [irmay_lt (by norm_num)]; norm_num

/-! ## C16 : relative permeability derivatives -/

/-- Irmay, unsmoothed Mualem, and the smoothing polynomial. -/
theorem C16_derivatives {m : ℝ} (hm : 0 < m) {Se : ℝ} (h0 : 0 < Se) (h1 : Se < 1) :
    HasDerivAt (fun s => (irmay m s).k) (irmay m Se).dk Se ∧
    HasDerivAt (fun s => (mualemUnsmoothed m s).k) (mualemUnsmoothed m Se).dk Se :=
  ⟨irmay_hasDerivAt h0 h1, mualem_hasDerivAt hm h0 h1⟩

/-- The cubic part, everywhere. -/
theorem C16_cubic_derivative (c : Fin 4 → ℝ) (Se x0 dx : ℝ) :
    HasDerivAt (fun s => (cubicEvaluate c s x0 dx).k) (cubicEvaluate c Se x0 dx).dk Se :=
  cubic_hasDerivAt c Se x0 dx

/-! ## C17 : the smoothing joins smoothly -/

/-- Whatever the interval and its scaling, the library finds coefficients, the smoothed curve is
differentiable with the returned derivative at every effective saturation below 1 (in particular
at the joint), and it reaches 1 with slope 0 at the end of the interval. -/
theorem C17_smooth_join {m x0 x1 x2 dx : ℝ} (hm : 0 < m) (h0 : 0 < x1)
    (h1 : x1 < 1) (hx : x1 < x2) (hdx : dx ≠ 0) :
    ∃ c, smoothingCoeffs m x0 x1 x2 dx = some c ∧
      (cubicEvaluate c x1 x0 dx).k = (mualemUnsmoothed m x1).k ∧
      (cubicEvaluate c x1 x0 dx).dk = (mualemUnsmoothed m x1).dk ∧
      (mualem m x0 x1 dx c x2).k = 1 ∧ (mualem m x0 x1 dx c x2).dk = 0 ∧
      ∀ Se, 0 < Se →
        HasDerivAt (fun s => (mualem m x0 x1 dx c s).k) (mualem m x0 x1 dx c Se).dk Se := by
  obtain ⟨c, hc, e0, e1, e2, e3⟩ := cubicSetup_spec (x0 := x0) hx.ne hdx
    ![1.0, (mualemUnsmoothed m x1).k, 0.0, (mualemUnsmoothed m x1).dk]
  simp only [Matrix.cons_val] at e0 e1 e2 e3
  refine ⟨c, hc, e1, e3, ?_, ?_, ?_⟩
  · rw [mualem, if_pos hx, e0, one_lit]
  · rw [mualem, if_pos hx, e2, zero_lit]
  · intro Se hSe
    rcases lt_trichotomy Se x1 with h | h | h
    · have e : (fun s => (mualem m x0 x1 dx c s).k) =ᶠ[𝓝 Se]
          fun s => (mualemUnsmoothed m s).k := by
        filter_upwards [gt_mem_nhds h] with s hs
        rw [mualem, if_neg (not_lt.2 (le_of_lt hs))]
      rw [mualem, if_neg (not_lt.2 h.le)]
      exact (mualem_hasDerivAt hm hSe (h.trans h1)).congr_of_eventuallyEq e
    · subst h
      rw [mualem, if_neg (lt_irrefl _)]
      have hl : HasDerivWithinAt (fun s => (mualem m x0 Se dx c s).k)
          (mualemUnsmoothed m Se).dk (Set.Iic Se) Se := by
        refine (mualem_hasDerivAt hm hSe h1).hasDerivWithinAt.congr ?_ ?_
        · intro s hs; rw [mualem, if_neg (not_lt.2 hs)]
        · rw [mualem, if_neg (lt_irrefl _)]
      have hr : HasDerivWithinAt (fun s => (mualem m x0 Se dx c s).k)
          (mualemUnsmoothed m Se).dk (Set.Ici Se) Se := by
        rw [← e3]
        refine (cubic_hasDerivAt c Se x0 dx).hasDerivWithinAt.congr ?_ ?_
        · intro s hs
          rcases (Set.mem_Ici.1 hs).eq_or_lt with hh | hh
          · rw [← hh, mualem, if_neg (lt_irrefl _), e1]
          · rw [mualem, if_pos hh]
        · rw [mualem, if_neg (lt_irrefl _), e1]
      have := hl.union hr
      rw [Set.Iic_union_Ici] at this
      exact hasDerivWithinAt_univ.1 this
    · have e : (fun s => (mualem m x0 x1 dx c s).k) =ᶠ[𝓝 Se]
          fun s => (cubicEvaluate c s x0 dx).k := by
        filter_upwards [lt_mem_nhds h] with s hs
        rw [mualem, if_pos hs]
      rw [mualem, if_pos h]
      exact (cubic_hasDerivAt c Se x0 dx).congr_of_eventuallyEq e

/-- Without an interval (`x1 = x2`) the library reports an error. -/
theorem C17_empty_interval_refused (m x0 x1 dx : ℝ) : smoothingCoeffs m x0 x1 x1 dx = none := by
  have : (cubicMatrix x0 x1 x1 dx).det = 0 :=
    Matrix.det_zero_of_row_eq (i := 0) (j := 1) (by decide) (by
      funext j; fin_cases j <;> simp [cubicMatrix])
  simp [smoothingCoeffs, cubicSetup, this]

/-- Non-vacuity of C17: the library's default options (src/tdycore.c:283-286). -/
example : (0:ℝ) < 0.99 ∧ (0.99:ℝ) < 1 ∧ (0.99:ℝ) < 1.00 ∧ (0.005:ℝ) ≠ 0 := by norm_num

/-! ## C82 : the smoothed curve stays in [0,1] and is monotone -/

/-- With the smoothing interval ending at 1 (as in the default options) and starting at 1/25 or
later, the smoothed relative permeability is in [0,1] and nondecreasing on [0,1]. -/
theorem C82_smoothed_mualem {m x0 x1 dx : ℝ} (hm : 0 < m) (hm1 : m < 1) (h0 : 1/25 ≤ x1)
    (h1 : x1 < 1) (hdx : dx ≠ 0) :
    ∃ c, smoothingCoeffs m x0 x1 1 dx = some c ∧
      (∀ Se ∈ Set.Icc (0:ℝ) 1, 0 ≤ (mualem m x0 x1 dx c Se).k ∧ (mualem m x0 x1 dx c Se).k ≤ 1) ∧
      MonotoneOn (fun Se => (mualem m x0 x1 dx c Se).k) (Set.Icc 0 1) := by
  have hx0 : 0 < x1 := by linarith
  obtain ⟨c, hc, e1, e3, f2, g2, -⟩ := C17_smooth_join (x0 := x0) hm hx0 h1 h1 hdx
  rw [mualem, if_pos h1] at f2 g2
  obtain ⟨s0, s1⟩ := mualem_slope hm hm1 h0 h1
  have hmono : MonotoneOn (fun x => (cubicEvaluate c x x0 dx).k) (Set.Icc x1 1) := by
    apply cubic_monotone c h1 hdx (by rw [e3]; exact s0) g2
    rw [e3, e1, f2]; exact s1
  obtain ⟨ub, -, -, um⟩ := C15_mualem hm
  have hM : MonotoneOn (fun Se => (mualem m x0 x1 dx c Se).k) (Set.Icc 0 1) := by
    intro x hx y hy hxy
    simp only
    rcases le_or_gt y x1 with h | h
    · rw [mualem, mualem, if_neg (not_lt.2 h), if_neg (not_lt.2 (hxy.trans h))]
      exact um hx.1 hy.1 hxy
    · rcases le_or_gt x x1 with h' | h'
      · rw [mualem, mualem, if_pos h, if_neg (not_lt.2 h')]
        calc (mualemUnsmoothed m x).k ≤ (mualemUnsmoothed m x1).k :=
              um hx.1 (Set.mem_Ici.2 hx0.le) h'
          _ = (cubicEvaluate c x1 x0 dx).k := e1.symm
          _ ≤ (cubicEvaluate c y x0 dx).k :=
              hmono (Set.left_mem_Icc.2 h1.le) ⟨h.le, hy.2⟩ h.le
      · rw [mualem, mualem, if_pos h, if_pos h']
        exact hmono ⟨h'.le, hx.2⟩ ⟨h.le, hy.2⟩ hxy
  refine ⟨c, hc, ?_, hM⟩
  intro Se hSe
  constructor
  · have := hM (Set.left_mem_Icc.2 zero_le_one) hSe hSe.1
    simp only at this
    rw [mualem, if_neg (not_lt.2 hx0.le)] at this
    exact (ub 0 le_rfl).1.trans this
  · have := hM hSe (Set.right_mem_Icc.2 zero_le_one) hSe.2
    simp only at this
    rw [mualem, mualem, if_pos h1, f2] at this
    rw [mualem]; exact this

/-- Non-vacuity of C82: the default interval. -/
example : ∃ c, smoothingCoeffs (1/2) 0.995 0.99 1 0.005 = some c := by
  obtain ⟨c, hc, -⟩ := C82_smoothed_mualem (m := 1/2) (x0 := 0.995) (x1 := 0.99) (dx := 0.005)
    (by norm_num) (by norm_num) (by norm_num) (by norm_num) (by norm_num)
  exact ⟨c, hc⟩

end TDy.Curves.Props
