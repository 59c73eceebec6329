import Verif.Model.Eos
import Verif.Spec.Eos
import Mathlib.Analysis.SpecialFunctions.ExpDeriv
import Mathlib.Topology.Order.OrderClosed
import Mathlib.Tactic.NormNum
import Mathlib.Tactic.Linarith
import Mathlib.Tactic.FieldSimp

/-! # C20, C21, C79-C81: equations of state -/

namespace TDy.Eos.Props

open TDy.Eos TDy.Eos.Spec Filter Topology

theorem exp_lt {p : ℝ} (h : p < 101325) :
    densityExponential p = { v := 997.16, dv := some 0, d2v := some 0 } := by
  have : (0.0:ℝ) = 0 := by norm_num
  simp only [densityExponential, if_pos h, this]

theorem exp_ge {p : ℝ} (h : 101325 ≤ p) :
    densityExponential p =
      { v := 997.16*Real.exp (1e-8*(p - 101325))
        dv := some (1e-8*(997.16*Real.exp (1e-8*(p - 101325))))
        d2v := some (1e-8*(1e-8*(997.16*Real.exp (1e-8*(p - 101325))))) } := by
  simp only [densityExponential, if_neg (not_lt.2 h)]

/-! ## C20 -/

/-- The constant and the exponential water density are positive, nondecreasing and continuous. -/
theorem C20_positive_monotone_continuous :
    (∀ p, 0 < (densityConstant p).v) ∧ (∀ p, 0 < (densityExponential p).v) ∧
    Monotone (fun p => (densityConstant p).v) ∧ Monotone (fun p => (densityExponential p).v) ∧
    Continuous (fun p => (densityConstant p).v) ∧
    Continuous (fun p => (densityExponential p).v) := by
  refine ⟨fun p => by norm_num [densityConstant], ?_, monotone_const, ?_, continuous_const, ?_⟩
  · intro p
    rcases lt_or_ge p 101325 with h | h
    · rw [exp_lt h]; norm_num
    · rw [exp_ge h]
      have := Real.exp_pos (1e-8*(p - 101325))
      simp only; positivity
  · intro x y hxy
    simp only
    rcases lt_or_ge y 101325 with h | h
    · rw [exp_lt h, exp_lt (lt_of_le_of_lt hxy h)]
    · rw [exp_ge h]
      rcases lt_or_ge x 101325 with h' | h'
      · rw [exp_lt h']
        have : 1 ≤ Real.exp (1e-8*(y - 101325)) := by
          rw [Real.one_le_exp_iff]
          have : 0 ≤ y - 101325 := by linarith
          positivity
        simp only; linarith
      · rw [exp_ge h']
        have : Real.exp (1e-8*(x - 101325)) ≤ Real.exp (1e-8*(y - 101325)) := by
          rw [Real.exp_le_exp]; linarith
        simp only; linarith
  · have e : (fun p => (densityExponential p).v) =
        fun p => 997.16*Real.exp (1e-8*(max p 101325 - 101325)) := by
      funext p
      rcases lt_or_ge p 101325 with h | h
      · rw [exp_lt h, max_eq_right h.le]; simp
      · rw [exp_ge h, max_eq_left h]
    rw [e]
    exact continuous_const.mul (Real.continuous_exp.comp
      (continuous_const.mul ((continuous_id.max continuous_const).sub continuous_const)))

/-- The returned derivatives of the constant density. -/
theorem C20_constant_derivatives (p : ℝ) :
    ∃ d1 d2, (densityConstant p).dv = some d1 ∧ (densityConstant p).d2v = some d2 ∧
      HasDerivAt (fun p => (densityConstant p).v) d1 p ∧
      HasDerivAt (deriv fun p => (densityConstant p).v) d2 p := by
  have e : (fun p => (densityConstant p).v) = fun _ => (998.0:ℝ) := rfl
  refine ⟨0.0, 0.0, rfl, rfl, ?_, ?_⟩
  · rw [e]
    have h : (0.0:ℝ) = 0 := by norm_num
    rw [h]; exact hasDerivAt_const p _
  · rw [e]
    have h : (0.0:ℝ) = 0 := by norm_num
    rw [h]
    have : deriv (fun _ : ℝ => (998.0:ℝ)) = fun _ => 0 := by funext x; simp
    rw [this]; exact hasDerivAt_const p _

/-- The returned derivatives of the exponential density, away from the cut-off pressure, are the
derivative of the density and the derivative of that derivative. -/
theorem C20_exponential_derivatives (p : ℝ) (hp : p ≠ 101325) :
    ∃ d1 d2, (densityExponential p).dv = some d1 ∧ (densityExponential p).d2v = some d2 ∧
      HasDerivAt (fun p => (densityExponential p).v) d1 p ∧
      HasDerivAt (deriv fun p => (densityExponential p).v) d2 p := by
  have dl : ∀ q : ℝ, q < 101325 → HasDerivAt (fun p => (densityExponential p).v) 0 q := by
    intro q hq
    have e : (fun p => (densityExponential p).v) =ᶠ[𝓝 q] fun _ => 997.16 := by
      filter_upwards [gt_mem_nhds hq] with x hx
      rw [exp_lt hx]
    exact (hasDerivAt_const q _).congr_of_eventuallyEq e
  have de : ∀ q : ℝ, HasDerivAt (fun q => Real.exp (1e-8*(q - 101325)))
      (Real.exp (1e-8*(q - 101325))*1e-8) q := by
    intro q
    have d : HasDerivAt (fun q : ℝ => (1e-8:ℝ)*(q - 101325)) 1e-8 q := by
      have := ((hasDerivAt_id q).sub_const (101325:ℝ)).const_mul (1e-8:ℝ)
      rw [mul_one] at this; exact this
    exact d.exp
  have dg : ∀ q : ℝ, 101325 < q → HasDerivAt (fun p => (densityExponential p).v)
      (1e-8*(997.16*Real.exp (1e-8*(q - 101325)))) q := by
    intro q hq
    have e : (fun p => (densityExponential p).v) =ᶠ[𝓝 q]
        fun q => 997.16*Real.exp (1e-8*(q - 101325)) := by
      filter_upwards [lt_mem_nhds hq] with x hx
      rw [exp_ge (le_of_lt hx)]
    refine (HasDerivAt.congr_deriv ((de q).const_mul (997.16:ℝ)) ?_).congr_of_eventuallyEq e
    ring
  rcases lt_or_gt_of_ne hp with h | h
  · rw [exp_lt h]
    refine ⟨0, 0, rfl, rfl, dl p h, ?_⟩
    have e : (deriv fun p => (densityExponential p).v) =ᶠ[𝓝 p] fun _ => 0 := by
      filter_upwards [gt_mem_nhds h] with x hx
      exact (dl x hx).deriv
    exact (hasDerivAt_const p _).congr_of_eventuallyEq e
  · rw [exp_ge h.le]
    refine ⟨_, _, rfl, rfl, dg p h, ?_⟩
    have e : (deriv fun p => (densityExponential p).v) =ᶠ[𝓝 p]
        fun q => 1e-8*(997.16*Real.exp (1e-8*(q - 101325))) := by
      filter_upwards [lt_mem_nhds h] with x hx
      exact (dg x hx).deriv
    refine (HasDerivAt.congr_deriv (((de p).const_mul (997.16:ℝ)).const_mul (1e-8:ℝ))
      ?_).congr_of_eventuallyEq e
    ring

/-- Non-vacuity of C20: the derivative is not zero above the cut-off. -/
example : ∃ d, (densityExponential 101326).dv = some d ∧ d ≠ 0 := by
  refine ⟨_, by rw [exp_ge (by norm_num)], ?_⟩
  have := Real.exp_pos (1e-8*(101326 - 101325))
  positivity

/-! ## C21 -/

/-- The salinity mass fraction. -/
theorem C21_fraction {mw : ℝ} (hmw : 0 < mw) :
    (∀ Psi, 0 ≤ Psi → 0 ≤ salinityFraction Psi mw ∧ salinityFraction Psi mw < 1 ∧
      (salinityFraction Psi mw = 0 ↔ Psi = 0)) ∧
    StrictMonoOn (fun Psi => salinityFraction Psi mw) (Set.Ici 0) := by
  constructor
  · intro Psi h
    have h1 : 0 ≤ Psi*mw := mul_nonneg h hmw.le
    have h2 : 0 < Psi*mw + 999 := by linarith
    refine ⟨div_nonneg h1 h2.le, ?_, ?_⟩
    · rw [salinityFraction, div_lt_one h2]; linarith
    · rw [salinityFraction, div_eq_zero_iff]
      constructor
      · rintro (h3 | h3)
        · rcases mul_eq_zero.1 h3 with h4 | h4
          · exact h4
          · exact absurd h4 hmw.ne'
        · exact absurd h3 h2.ne'
      · intro e; left; rw [e, zero_mul]
  · intro x hx y hy hxy
    have h1 : 0 ≤ x*mw := mul_nonneg hx hmw.le
    have h2 : x*mw < y*mw := mul_lt_mul_of_pos_right hxy hmw
    simp only [salinityFraction]
    rw [div_lt_div_iff₀ (by linarith) (by linarith)]
    nlinarith

/-- Non-vacuity of C21. -/
example : salinityFraction 999 1 = 1/2 := by norm_num [salinityFraction]

/-! ## C79 : Batzle-Wang density -/

/-- C79 fails: the code's density agrees with the published correlation only without salt, at
0 degrees or at one other temperature (the code has `80.*3.*T` where the correlation has
`80 + 3 T`). -/
theorem C79_density_differs (P T S : ℝ) :
    (densityBatzleWang P T S).v = 1000*rhoBrine (P*1e-6) T S ↔ S = 0 ∨ T = 0 ∨ T = 80/237 := by
  have key : (densityBatzleWang P T S).v - 1000*rhoBrine (P*1e-6) T S =
      1e-3*(S*(T*(237*T - 80))) := by
    simp only [densityBatzleWang, rhoBrine, rhoWater]; ring
  constructor
  · intro h
    rw [h, sub_self] at key
    have : S*(T*(237*T - 80)) = 0 := by linarith
    rcases mul_eq_zero.1 this with h1 | h1
    · exact Or.inl h1
    · rcases mul_eq_zero.1 h1 with h2 | h2
      · exact Or.inr (Or.inl h2)
      · right; right; linarith
  · intro h
    have : S*(T*(237*T - 80)) = 0 := by
      rcases h with h | h | h
      · rw [h]; ring
      · rw [h]; ring
      · rw [h]; ring
    rw [this] at key; linarith

/-- Partial C79: fresh water. -/
theorem C79_fresh_water_partial (P T : ℝ) :
    (densityBatzleWang P T 0).v = 1000*rhoWater (P*1e-6) T := by
  have := (C79_density_differs P T 0).2 (Or.inl rfl)
  rw [this]; simp [rhoBrine]

/-- A concrete disagreement: 20 degrees, 10% salt. -/
example : (densityBatzleWang 101325 20 0.1).v ≠ 1000*rhoBrine (101325*1e-6) 20 0.1 := by
  rw [Ne, C79_density_differs]; norm_num

/-! ## C80 : Batzle-Wang viscosity -/

/-- C80 fails: for every salinity the viscosity equals the published one only at 0 degrees (the
code loses the minus sign in front of the bracket's second term). -/
theorem C80_viscosity_differs {T S : ℝ} (hT : 0 ≤ T) (hS : 0 ≤ S) :
    (viscosityBatzleWang T S).v = 1e-3*etaBrine T S ↔ T = 0 := by
  have hc : (0:ℝ) < 1.65 + 91.9*S^3 := by positivity
  have hne : ((0.8:ℝ)) ≠ 0 := by norm_num
  constructor
  · intro h
    simp only [viscosityBatzleWang, etaBrine] at h
    have h1 : Real.exp ((-0.42*(S ^ (0.8:ℝ) - 0.17)^2 + 0.045)*T ^ (0.8:ℝ)) =
        Real.exp (-(0.42*(S ^ (0.8:ℝ) - 0.17)^2 + 0.045)*T ^ (0.8:ℝ)) := by
      have : (1.65 + 91.9*S^3)*Real.exp ((-0.42*(S ^ (0.8:ℝ) - 0.17)^2 + 0.045)*T ^ (0.8:ℝ)) =
        (1.65 + 91.9*S^3)*Real.exp (-(0.42*(S ^ (0.8:ℝ) - 0.17)^2 + 0.045)*T ^ (0.8:ℝ)) := by
        linarith
      exact mul_left_cancel₀ hc.ne' this
    have h2 := Real.exp_injective h1
    have h3 : T ^ (0.8:ℝ) = 0 := by linarith
    exact ((Real.rpow_eq_zero hT hne).1 h3)
  · intro h
    subst h
    simp only [viscosityBatzleWang, etaBrine, Real.zero_rpow hne]
    simp; ring

/-- C80 fails: for fresh water the viscosity strictly increases with temperature. -/
theorem C80_viscosity_increases : StrictMonoOn (fun T => (viscosityBatzleWang T 0).v)
    (Set.Ici 0) := by
  intro x hx y hy hxy
  have hne : ((0.8:ℝ)) ≠ 0 := by norm_num
  simp only [viscosityBatzleWang, Real.zero_rpow hne]
  have h1 : x ^ (0.8:ℝ) < y ^ (0.8:ℝ) := Real.rpow_lt_rpow hx hxy (by norm_num)
  have h2 : Real.exp ((-0.42*(0 - 0.17)^2 + 0.045)*x ^ (0.8:ℝ)) <
      Real.exp ((-0.42*(0 - 0.17)^2 + 0.045)*y ^ (0.8:ℝ)) := by
    rw [Real.exp_lt_exp]
    apply mul_lt_mul_of_pos_left h1; norm_num
  nlinarith

/-- The published correlation does not increase with temperature (so C80 is not an accident of
the specification). -/
theorem published_viscosity_antitone {S : ℝ} (hS : 0 ≤ S) :
    AntitoneOn (fun T => etaBrine T S) (Set.Ici 0) := by
  intro x hx y hy hxy
  simp only [etaBrine]
  have hc : (0:ℝ) < 1.65 + 91.9*S^3 := by positivity
  have h1 : x ^ (0.8:ℝ) ≤ y ^ (0.8:ℝ) := Real.rpow_le_rpow hx hxy (by norm_num)
  have h2 : Real.exp (-(0.42*(S ^ (0.8:ℝ) - 0.17)^2 + 0.045)*y ^ (0.8:ℝ)) ≤
      Real.exp (-(0.42*(S ^ (0.8:ℝ) - 0.17)^2 + 0.045)*x ^ (0.8:ℝ)) := by
    rw [Real.exp_le_exp]
    have : 0 ≤ 0.42*(S ^ (0.8:ℝ) - 0.17)^2 + 0.045 := by positivity
    nlinarith
  nlinarith

/-- Partial C80: when the code's exponent coefficient is not positive (strong brines), the
viscosity does not increase with temperature; it is always positive. -/
theorem C80_strong_brine_partial {S : ℝ} (hS : 0 ≤ S)
    (hs : 0.045 ≤ 0.42*(S ^ (0.8:ℝ) - 0.17)^2) :
    AntitoneOn (fun T => (viscosityBatzleWang T S).v) (Set.Ici 0) ∧
      ∀ T, 0 < (viscosityBatzleWang T S).v := by
  constructor
  · intro x hx y hy hxy
    simp only [viscosityBatzleWang]
    have hc : (0:ℝ) < 1.65 + 91.9*S^3 := by positivity
    have h1 : x ^ (0.8:ℝ) ≤ y ^ (0.8:ℝ) := Real.rpow_le_rpow hx hxy (by norm_num)
    have h2 : Real.exp ((-0.42*(S ^ (0.8:ℝ) - 0.17)^2 + 0.045)*y ^ (0.8:ℝ)) ≤
        Real.exp ((-0.42*(S ^ (0.8:ℝ) - 0.17)^2 + 0.045)*x ^ (0.8:ℝ)) := by
      rw [Real.exp_le_exp]
      have : -0.42*(S ^ (0.8:ℝ) - 0.17)^2 + 0.045 ≤ 0 := by linarith
      nlinarith
    nlinarith
  · intro T
    simp only [viscosityBatzleWang]
    have := Real.exp_pos ((-0.42*(S ^ (0.8:ℝ) - 0.17)^2 + 0.045)*T ^ (0.8:ℝ))
    positivity

/-- Non-vacuity of the partial theorem (weight fraction 1, the limit of the scale). -/
example : (0.045:ℝ) ≤ 0.42*((1:ℝ) ^ (0.8:ℝ) - 0.17)^2 := by
  rw [Real.one_rpow]; norm_num

/-! ## C81 : derivatives are delivered -/

/-- C81 fails: the Batzle-Wang density never writes its derivatives. -/
theorem C81_derivatives_missing (p T S : ℝ) :
    ∃ o, waterDensity .batzleWang p T S = some o ∧ o.dv = none ∧ o.d2v = none :=
  ⟨_, rfl, rfl, rfl⟩

/-- Partial C81: the other accepted types write all three outputs; other values are refused. -/
theorem C81_other_types_partial (ty : DensityType) (p T S : ℝ) :
    (ty = .constant ∨ ty = .exponential →
      ∃ v d1 d2, waterDensity ty p T S = some ⟨v, some d1, some d2⟩) ∧
    (ty = .other → waterDensity ty p T S = none) := by
  constructor
  · rintro (h | h)
    · subst h; exact ⟨_, _, _, rfl⟩
    · subst h
      rcases lt_or_ge p 101325 with h' | h'
      · exact ⟨_, _, _, by rw [waterDensity, exp_lt h']⟩
      · exact ⟨_, _, _, by rw [waterDensity, exp_ge h']⟩
  · rintro rfl; rfl

end TDy.Eos.Props
