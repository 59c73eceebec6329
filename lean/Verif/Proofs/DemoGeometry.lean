import Verif.Model.DemoGeometry
import Verif.Spec.SteadyDemo
import Mathlib.Analysis.SpecialFunctions.Trigonometric.Bounds
import Mathlib.Analysis.Real.Pi.Bounds
import Mathlib.Tactic.Linarith
import Mathlib.Tactic.LinearCombination
import Mathlib.Tactic.Positivity
import Mathlib.Tactic.IntervalCases
import Mathlib.Tactic.FinCases

namespace TDy.Demo.Proofs

open TDy TDy.Demo TDy.Demo.Spec

/-- A loop that replaces the block of every point by something computed from that block. -/
theorem forN_map (k n : Nat) (g : (Fin k → ℝ) → Nat → ℝ) (body : Nat → (Nat → ℝ) → Nat → ℝ)
    (hin : ∀ i a c, c < k → body i a (k * i + c) = g (pointAt k a i) c)
    (hout : ∀ i a j, (j < k * i ∨ k * i + k ≤ j) → body i a j = a j) (a : Nat → ℝ) :
    (∀ i, i < n → ∀ c, c < k → forN n body a (k * i + c) = g (pointAt k a i) c) ∧
      ∀ j, k * n ≤ j → forN n body a j = a j := by
  induction n with
  | zero => exact ⟨fun i hi => absurd hi (by omega), fun j _ => rfl⟩
  | succ n ih =>
    obtain ⟨h1, h2⟩ := ih
    constructor
    · intro i hi c hc
      show body n (forN n body a) (k * i + c) = _
      by_cases h : i = n
      · subst h
        rw [hin i _ c hc]
        congr 1
        funext j
        exact h2 _ (by omega)
      · rw [hout n _ _ (Or.inl ?_)]
        · exact h1 i (by omega) c hc
        · have : k * (i + 1) ≤ k * n := Nat.mul_le_mul_left k (by omega)
          rw [Nat.mul_add] at this; omega
    · intro j hj
      rw [Nat.mul_add, Nat.mul_one] at hj
      show body n (forN n body a) j = _
      rw [hout n _ _ (Or.inr (by omega)), h2 j (by omega)]

theorem sin_mul_sin (a b : ℝ) :
    Real.sin a * Real.sin b = (Real.cos (a - b) - Real.cos (a + b)) / 2 := by
  rw [Real.cos_sub, Real.cos_add]; ring

/-- The product of two sines changes by at most the larger change of the angles. -/
theorem two_sines (a b a' b' m : ℝ) (ha : |a - a'| ≤ m) (hb : |b - b'| ≤ m) :
    |Real.sin a * Real.sin b - Real.sin a' * Real.sin b'| ≤ m := by
  rw [sin_mul_sin, sin_mul_sin]
  have h1 := Real.abs_cos_sub_cos_le (a - b) (a' - b')
  have h2 := Real.abs_cos_sub_cos_le (a + b) (a' + b')
  have h3 : |a - b - (a' - b')| + |a + b - (a' + b')| ≤ 2 * m := by
    rw [abs_le] at ha hb
    rcases abs_cases (a - b - (a' - b')) with ⟨e1, _⟩ | ⟨e1, _⟩ <;>
      rcases abs_cases (a + b - (a' + b')) with ⟨e2, _⟩ | ⟨e2, _⟩ <;>
      rw [e1, e2] <;> linarith
  rw [abs_le] at h1 h2 ⊢
  constructor <;> linarith

theorem sin_cos_cos (a b c : ℝ) :
    Real.sin a * Real.cos b * Real.cos c = (Real.sin (a + b + c) + Real.sin (a + b - c)
      + Real.sin (a - b + c) + Real.sin (a - b - c)) / 4 := by
  simp only [Real.sin_add, Real.sin_sub, Real.cos_add, Real.cos_sub]; ring

/-- The product of a sine and two cosines changes by at most one and a half times the largest
change of the angles. -/
theorem sine_cosines (a b c a' b' c' m : ℝ) (ha : |a - a'| ≤ m) (hb : |b - b'| ≤ m)
    (hc : |c - c'| ≤ m) :
    |Real.sin a * Real.cos b * Real.cos c - Real.sin a' * Real.cos b' * Real.cos c'| ≤ 3 / 2 * m := by
  rw [sin_cos_cos, sin_cos_cos]
  have h1 := Real.abs_sin_sub_sin_le (a + b + c) (a' + b' + c')
  have h2 := Real.abs_sin_sub_sin_le (a + b - c) (a' + b' - c')
  have h3 := Real.abs_sin_sub_sin_le (a - b + c) (a' - b' + c')
  have h4 := Real.abs_sin_sub_sin_le (a - b - c) (a' - b' - c')
  have h5 : |a + b + c - (a' + b' + c')| + |a + b - c - (a' + b' - c')|
      + |a - b + c - (a' - b' + c')| + |a - b - c - (a' - b' - c')| ≤ 6 * m := by
    rw [abs_le] at ha hb hc
    rcases abs_cases (a + b + c - (a' + b' + c')) with ⟨e1, _⟩ | ⟨e1, _⟩ <;>
      rcases abs_cases (a + b - c - (a' + b' - c')) with ⟨e2, _⟩ | ⟨e2, _⟩ <;>
      rcases abs_cases (a - b + c - (a' - b' + c')) with ⟨e3, _⟩ | ⟨e3, _⟩ <;>
      rcases abs_cases (a - b - c - (a' - b' - c')) with ⟨e4, _⟩ | ⟨e4, _⟩ <;>
      rw [e1, e2, e3, e4] <;> linarith
  rw [abs_le] at h1 h2 h3 h4 ⊢
  constructor <;> linarith

theorem scaled (k a b m : ℝ) (hk : 0 ≤ k) (h : |a - b| ≤ m) : |k * a - k * b| ≤ k * m := by
  rw [← mul_sub, abs_mul, abs_of_nonneg hk]
  exact mul_le_mul_of_nonneg_left h hk

/-- No two points of the plane are moved to the same place. -/
theorem smooth2_inj (x y x' y' : ℝ) (h : smooth2 x y = smooth2 x' y') : x = x' ∧ y = y' := by
  simp only [smooth2, Prod.mk.injEq] at h
  obtain ⟨h1, h2⟩ := h
  have hpi := Real.pi_lt_d2
  have hp0 := Real.pi_pos
  set m := max |x - x'| |y - y'| with hm
  have mx : |x - x'| ≤ m := le_max_left _ _
  have my : |y - y'| ≤ m := le_max_right _ _
  have m0 : 0 ≤ m := le_trans (abs_nonneg _) mx
  have hs := two_sines (2.0 * Real.pi * x) (2.0 * Real.pi * y) (2.0 * Real.pi * x')
    (2.0 * Real.pi * y') (2.0 * Real.pi * m) (scaled _ _ _ _ (by positivity) mx)
    (scaled _ _ _ _ (by positivity) my)
  rw [mul_assoc 0.06, mul_assoc 0.06] at h1
  rw [mul_assoc 0.05, mul_assoc 0.05] at h2
  set s := Real.sin (2.0 * Real.pi * x) * Real.sin (2.0 * Real.pi * y) with hsd
  set s' := Real.sin (2.0 * Real.pi * x') * Real.sin (2.0 * Real.pi * y') with hsd'
  have hb : |s - s'| ≤ 6.4 * m := le_trans hs (by nlinarith)
  rw [abs_le] at hb
  have e1 : |x - x'| ≤ 0.5 * m := by rw [abs_le]; constructor <;> linarith
  have e2 : |y - y'| ≤ 0.5 * m := by rw [abs_le]; constructor <;> linarith
  have : m ≤ 0.5 * m := max_le e1 e2
  have m1 : m = 0 := by linarith
  rw [m1] at mx my
  exact ⟨by have := abs_nonpos_iff.mp mx; linarith, by have := abs_nonpos_iff.mp my; linarith⟩

/-- No two points of space are moved to the same place. -/
theorem smooth3_inj (x y z x' y' z' : ℝ) (h : smooth3 x y z = smooth3 x' y' z') :
    x = x' ∧ y = y' ∧ z = z' := by
  simp only [smooth3, Prod.mk.injEq] at h
  obtain ⟨h1, h2, h3⟩ := h
  have hpi := Real.pi_lt_d2
  have hp0 := Real.pi_pos
  set m := max |x - x'| (max |y - y'| |z - z'|) with hm
  have mx : |x - x'| ≤ m := le_max_left _ _
  have my : |y - y'| ≤ m := le_trans (le_max_left _ _) (le_max_right _ _)
  have mz : |z - z'| ≤ m := le_trans (le_max_right _ _) (le_max_right _ _)
  have m0 : 0 ≤ m := le_trans (abs_nonneg _) mx
  have ax := scaled (3 * Real.pi) _ _ _ (by positivity) mx
  have ay := scaled (3 * Real.pi) _ _ _ (by positivity) my
  have az := scaled (3 * Real.pi) _ _ _ (by positivity) mz
  have s1 := sine_cosines _ _ _ _ _ _ _ ax ay az
  have s2 := sine_cosines _ _ _ _ _ _ _ ay ax az
  have s3 := sine_cosines _ _ _ _ _ _ _ az ax ay
  have hbound : 3 / 2 * (3 * Real.pi * m) ≤ 14.4 * m := by nlinarith
  have s1 := le_trans s1 hbound
  have s2 := le_trans s2 hbound
  have s3 := le_trans s3 hbound
  have e1 : |x - x'| ≤ 0.75 * m := by
    have : x - x' = -0.03 * (Real.sin (3 * Real.pi * x) * Real.cos (3 * Real.pi * y)
        * Real.cos (3 * Real.pi * z) - Real.sin (3 * Real.pi * x') * Real.cos (3 * Real.pi * y')
        * Real.cos (3 * Real.pi * z')) := by linear_combination h1
    rw [this, abs_mul]
    rw [abs_of_nonpos (by norm_num : (-0.03 : ℝ) ≤ 0)]
    linarith
  have e2 : |y - y'| ≤ 0.75 * m := by
    have : y - y' = 0.04 * (Real.sin (3 * Real.pi * y) * Real.cos (3 * Real.pi * x)
        * Real.cos (3 * Real.pi * z) - Real.sin (3 * Real.pi * y') * Real.cos (3 * Real.pi * x')
        * Real.cos (3 * Real.pi * z')) := by linear_combination h2
    rw [this, abs_mul]
    rw [abs_of_nonneg (by norm_num : (0 : ℝ) ≤ 0.04)]
    linarith
  have e3 : |z - z'| ≤ 0.75 * m := by
    have : z - z' = -0.05 * (Real.sin (3 * Real.pi * z) * Real.cos (3 * Real.pi * x)
        * Real.cos (3 * Real.pi * y) - Real.sin (3 * Real.pi * z') * Real.cos (3 * Real.pi * x')
        * Real.cos (3 * Real.pi * y')) := by linear_combination h3
    rw [this, abs_mul]
    rw [abs_of_nonpos (by norm_num : (-0.05 : ℝ) ≤ 0)]
    linarith
  have : m ≤ 0.75 * m := max_le e1 (max_le e2 e3)
  have m1 : m = 0 := by linarith
  rw [m1] at mx my mz
  exact ⟨by have := abs_nonpos_iff.mp mx; linarith, by have := abs_nonpos_iff.mp my; linarith,
    by have := abs_nonpos_iff.mp mz; linarith⟩

/-- The mesh of Wheeler 2006, problem 2, has a positive height above every point of its base. -/
theorem height2006_pos (x : ℝ) (h0 : 0 ≤ x) :
    ∃ g : ℝ, 0 < g ∧ ∀ y, height2006 x y = g * y := by
  unfold height2006
  by_cases h : x < 0.5
  · refine ⟨-4.8 * x * x + 2 * x + 0.7, ?_, fun y => by rw [if_pos h]⟩
    nlinarith
  · exact ⟨0.75 * x + 0.125, by linarith, fun y => by rw [if_neg h]⟩

end TDy.Demo.Proofs
