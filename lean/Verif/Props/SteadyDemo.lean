import Verif.Proofs.SteadyDemo
import Mathlib.Tactic.Positivity
import Mathlib.Tactic.Linarith
import Mathlib.Tactic.FieldSimp

/-!
# The verification problems of the program `steady`
-/

namespace TDy.Demo.Props

open TDy TDy.Demo TDy.Demo.Spec TDy.Demo.Proofs

/-- The constant problem in two dimensions. -/
def ConstantInPlane (paper : Paper) (dim problem : Int) : Prop :=
  dim = 2 ∧ ((paper = .wheeler2006 ∧ problem = 0) ∨
    (paper ≠ .wheeler2006 ∧ paper ≠ .wheeler2012 ∧ problem = 1))

/-- The first problem of Wheeler 2012, under either of its two names. -/
def FirstOf2012 (paper : Paper) (problem : Int) : Prop :=
  (paper = .wheeler2012 ∧ problem = 1) ∨
    (paper ≠ .wheeler2006 ∧ paper ≠ .wheeler2012 ∧ problem = 4)

/-- C202.  Whatever `-paper`, `-problem` and `-alpha` say, in two or three dimensions: the four
functions that are handed to the library are an exact solution of the equations, at every point of
space.  Each of them gives the values at the points it is asked about, for any number of points,
and writes nothing else.  Partial: the velocity of the constant problem in the plane, and of the
first problem of Wheeler 2012, is only right for one point at a time (`C202_violated`). -/
theorem C202_exact_solutions_partial (paper : Paper) (alpha : ℝ) (dim problem : Int) (q : Problem)
    (d : Nat) (hd : dim = d) (hdim : dim = 2 ∨ dim = 3)
    (hq : choose paper alpha dim problem = .set q) :
    ∃ K p v f : (Fin d → ℝ) → Nat → ℝ,
      Evaluates d (d * d) q.perm K ∧ Evaluates d 1 q.pressure p ∧ Evaluates d 1 q.forcing f ∧
      AtOnePoint d d q.velocity v ∧
      (¬ConstantInPlane paper dim problem → ¬FirstOf2012 paper problem →
        Evaluates d d q.velocity v) ∧
      Solves d K p v f := by
  have const2 : ∀ pap : Paper, ∀ pr : Int, ConstantInPlane pap 2 pr →
      ∃ K p v f : (Fin 2 → ℝ) → Nat → ℝ,
      Evaluates 2 (2 * 2) permTest2D K ∧ Evaluates 2 1 pressureConstant p ∧
      Evaluates 2 1 forcingConstant f ∧ AtOnePoint 2 2 velocityConstant v ∧
      (¬ConstantInPlane pap 2 pr → ¬FirstOf2012 pap pr → Evaluates 2 2 velocityConstant v) ∧
      Solves 2 K p v f := fun pap pr h =>
    ⟨_, _, _, _, permTest2D_eval, pressureConstant_eval 2, forcingConstant_eval 2,
      velocityConstant_one, fun hn => absurd h hn, constant_solves 2 _⟩
  have first : ∀ pap : Paper, ∀ pr : Int, FirstOf2012 pap pr →
      ∃ K p v f : (Fin 2 → ℝ) → Nat → ℝ,
      Evaluates 2 (2 * 2) permWheeler2012_1 K ∧ Evaluates 2 1 pressureWheeler2012_1 p ∧
      Evaluates 2 1 forcingWheeler2012_1 f ∧ AtOnePoint 2 2 velocityWheeler2012_1 v ∧
      (¬ConstantInPlane pap 2 pr → ¬FirstOf2012 pap pr → Evaluates 2 2 velocityWheeler2012_1 v) ∧
      Solves 2 K p v f := fun pap pr h =>
    ⟨_, _, _, _, permWheeler2012_1_eval, pressureWheeler2012_1_eval, forcingWheeler2012_1_eval,
      velocityWheeler2012_1_one, fun _ hn => absurd h hn, wheeler2012_1_solves⟩
  have other : ∀ pap : Paper, (pap ≠ .wheeler2006 ∧ pap ≠ .wheeler2012) →
      chooseOther alpha dim problem = .set q →
      ∃ K p v f : (Fin d → ℝ) → Nat → ℝ,
      Evaluates d (d * d) q.perm K ∧ Evaluates d 1 q.pressure p ∧ Evaluates d 1 q.forcing f ∧
      AtOnePoint d d q.velocity v ∧
      (¬ConstantInPlane pap dim problem → ¬FirstOf2012 pap problem →
        Evaluates d d q.velocity v) ∧
      Solves d K p v f := by
    intro pap hpap hq
    unfold chooseOther at hq
    rcases hdim with h2 | h3
    · obtain rfl : d = 2 := by omega
      subst h2
      split at hq
      · cases hq
        exact const2 pap problem ⟨rfl, Or.inr ⟨hpap.1, hpap.2, by assumption⟩⟩
      · split at hq
        · cases hq
          exact ⟨_, _, _, _, permTest2D_eval, pressureQuadratic2D_eval, forcingQuadratic2D_eval,
            Evaluates.atOne velocityQuadratic2D_eval, fun _ _ => velocityQuadratic2D_eval,
            quadratic2D_solves⟩
        · split at hq
          · cases hq
            exact ⟨_, _, _, _, permTest2D_eval, pressureWheeler2006_1_eval,
              forcingWheeler2006_1_eval, Evaluates.atOne velocityWheeler2006_1_eval,
              fun _ _ => velocityWheeler2006_1_eval, wheeler2006_1_solves⟩
          · split at hq
            · cases hq
              exact first pap problem (Or.inr ⟨hpap.1, hpap.2, by assumption⟩)
            · cases hq
    · obtain rfl : d = 3 := by omega
      subst h3
      split at hq
      · cases hq
        exact ⟨_, _, _, _, permWheeler2012_2_eval alpha, pressureConstant_eval 3,
          forcingConstant_eval 3, Evaluates.atOne velocityConstant_eval,
          fun _ _ => velocityConstant_eval, constant_solves 3 _⟩
      · split at hq
        · cases hq
          exact ⟨_, _, _, _, permWheeler2012_2_eval alpha, pressureWheeler2012_2_eval,
            forcingWheeler2012_2_eval alpha, Evaluates.atOne (velocityWheeler2012_2_eval alpha),
            fun _ _ => velocityWheeler2012_2_eval alpha, wheeler2012_2_solves alpha⟩
        · split at hq
          · cases hq
            exact ⟨_, _, _, _, permWheeler2012_2_eval alpha, pressure3_eval, forcing3_eval alpha,
              Evaluates.atOne (velocity3_eval alpha), fun _ _ => velocity3_eval alpha,
              problem3_solves alpha⟩
          · split at hq <;> cases hq
  cases paper with
  | wheeler2006 =>
    simp only [choose, choose2006] at hq
    split at hq
    · cases hq
    · obtain rfl : dim = 2 := by omega
      obtain rfl : d = 2 := by omega
      split at hq
      · cases hq
        exact const2 _ problem ⟨rfl, Or.inl ⟨rfl, by assumption⟩⟩
      · split at hq
        · cases hq
          exact ⟨_, _, _, _, permWheeler2006_1_eval, pressureWheeler2006_1_eval,
            forcingWheeler2006_1_eval, Evaluates.atOne velocityWheeler2006_1_eval,
            fun _ _ => velocityWheeler2006_1_eval, wheeler2006_1_solves⟩
        · split at hq
          · cases hq
            exact ⟨_, _, _, _, permWheeler2006_2_eval, pressureWheeler2006_2_eval,
              forcingWheeler2006_2_eval, Evaluates.atOne velocityWheeler2006_2_eval,
              fun _ _ => velocityWheeler2006_2_eval, wheeler2006_2_solves⟩
          · cases hq
  | wheeler2012 =>
    simp only [choose, choose2012] at hq
    split at hq
    · split at hq
      · cases hq
      · obtain rfl : dim = 2 := by omega
        obtain rfl : d = 2 := by omega
        cases hq
        exact first _ problem (Or.inl ⟨rfl, by assumption⟩)
    · split at hq
      · split at hq
        · cases hq
        · obtain rfl : dim = 3 := by omega
          obtain rfl : d = 3 := by omega
          cases hq
          exact ⟨_, _, _, _, permWheeler2012_2_eval alpha, pressureWheeler2012_2_eval,
            forcingWheeler2012_2_eval alpha, Evaluates.atOne (velocityWheeler2012_2_eval alpha),
            fun _ _ => velocityWheeler2012_2_eval alpha, wheeler2012_2_solves alpha⟩
      · cases hq
  | column => exact other _ ⟨by simp, by simp⟩ hq
  | other => exact other _ ⟨by simp, by simp⟩ hq

/-- Problem 2 of Wheeler 2006 is chosen, and its velocity is right for any number of points. -/
example : ∃ q, choose .wheeler2006 1 2 2 = .set q ∧ ¬ConstantInPlane .wheeler2006 2 2 ∧
    ¬FirstOf2012 .wheeler2006 2 :=
  ⟨_, rfl, by simp [ConstantInPlane], by simp [FirstOf2012]⟩

/-- C202 fails.  The velocity of the constant problem in the plane, asked about `n` points, clears
`n` entries behind the `2 n` it was given; the velocity of the first problem of Wheeler 2012, asked
about more than one point, leaves every entry after the first two as it was; and the source of
the quadratic problem in three dimensions (which no option selects) is not the divergence of its
velocity, wherever it is evaluated. -/
theorem C202_violated :
    (∃ q, choose .other 1 2 1 = .set q ∧ ∀ n x out j, 2 * n ≤ j → j < 3 * n →
      q.velocity n x out j = 0) ∧
    (∃ q, choose .wheeler2012 1 2 1 = .set q ∧ ∀ n x out j, 2 ≤ j →
      q.velocity n x out j = out j) ∧
    (∃ K p v f, Evaluates 3 9 permTest3D K ∧ Evaluates 3 1 pressureQuadratic3D p ∧
      Evaluates 3 3 velocityQuadratic3D v ∧ Evaluates 3 1 forcingQuadratic3D f ∧
      ∃ f', Solves 3 K p v f' ∧ ∀ x, f x 0 ≠ f' x 0) := by
  refine ⟨⟨_, rfl, fun n x out j h1 h2 => ?_⟩, ⟨_, rfl, fun n x out j hj => ?_⟩,
    ⟨_, _, _, _, permTest3D_eval, pressureQuadratic3D_eval, velocityQuadratic3D_eval,
      forcingQuadratic3D_eval, _, quadratic3D_solves, fun x => by norm_num⟩⟩
  · have := velocityConstant_eval.values n x out (j / 3) (by omega) (j % 3) (by omega)
    rw [Nat.div_add_mod] at this
    exact this
  · show velocityWheeler2012_1 n x out j = out j
    simp only [velocityWheeler2012_1]
    refine forN_invariant n _ out (fun _ a => a j = out j) rfl (fun i a _ h => ?_)
    simp only [wr]
    rw [if_neg (by omega), if_neg (by omega)]
    exact h

/-- C203.  The permeability that is handed to the library is symmetric at every point, and positive
at every point: for the plane always, in space for every `-alpha` above two thirds, such as the
default 1. -/
theorem C203_permeability (paper : Paper) (alpha : ℝ) (dim problem : Int) (q : Problem)
    (d : Nat) (hd : dim = d) (hdim : dim = 2 ∨ dim = 3)
    (hq : choose paper alpha dim problem = .set q) :
    ∃ K : (Fin d → ℝ) → Nat → ℝ, Evaluates d (d * d) q.perm K ∧ SymmetricTensor d K ∧
      (dim = 2 ∨ 2 / 3 < alpha → PositiveTensor d K) := by
  have pos2 : ∀ a b c : ℝ, 0 < a → b * b < a * c → ∀ g : Fin 2 → ℝ, g ≠ 0 →
      0 < a * (g 0 * g 0) + 2 * b * (g 0 * g 1) + c * (g 1 * g 1) := by
    intro a b c ha hdet g hg
    have key : a * (a * (g 0 * g 0) + 2 * b * (g 0 * g 1) + c * (g 1 * g 1)) =
        (a * g 0 + b * g 1) ^ 2 + (a * c - b * b) * (g 1) ^ 2 := by ring
    have : 0 < a * (a * (g 0 * g 0) + 2 * b * (g 0 * g 1) + c * (g 1 * g 1)) := by
      rw [key]
      by_cases h1 : g 1 = 0
      · have h0 : g 0 ≠ 0 := by
          intro h0; apply hg; funext i; fin_cases i <;> assumption
        rw [h1]
        have : 0 < a * g 0 * (a * g 0) := mul_self_pos.mpr (mul_ne_zero ha.ne' h0)
        nlinarith
      · have : 0 < (g 1) ^ 2 := by positivity
        have := mul_pos (sub_pos.mpr hdet) this
        nlinarith [sq_nonneg (a * g 0 + b * g 1)]
    exact (mul_pos_iff_of_pos_left ha).mp this
  have A : SymmetricTensor 2 kA ∧ PositiveTensor 2 kA := by
    refine ⟨fun x i j => by fin_cases i <;> fin_cases j <;> simp [kA], fun x g hg => ?_⟩
    have := pos2 5 1 2 (by norm_num) (by norm_num) g hg
    simp [Fin.sum_univ_two, kA]; nlinarith
  have B : SymmetricTensor 2 kB ∧ PositiveTensor 2 kB := by
    refine ⟨fun x i j => by fin_cases i <;> fin_cases j <;> simp [kB], fun x g hg => ?_⟩
    have h1 := Real.sin_le_one (x 0 * x 1)
    have h2 := Real.neg_one_le_sin (x 0 * x 1)
    have := pos2 (4 + (x 0 + 2) ^ 2 + x 1 ^ 2) (1 + Real.sin (x 0 * x 1)) 2 (by positivity)
      (by nlinarith [sq_nonneg (x 0 + 2), sq_nonneg (x 1)]) g hg
    simp [Fin.sum_univ_two, kB]; nlinarith
  have C : SymmetricTensor 2 kC ∧ PositiveTensor 2 kC := by
    refine ⟨fun x i j => by fin_cases i <;> fin_cases j <;> simp [kC], fun x g hg => ?_⟩
    have := pos2 2 1.25 3 (by norm_num) (by norm_num) g hg
    simp [Fin.sum_univ_two, kC]; nlinarith
  have D : SymmetricTensor 3 (kD alpha) ∧ (2 / 3 < alpha → PositiveTensor 3 (kD alpha)) := by
    refine ⟨fun x i j => by fin_cases i <;> fin_cases j <;> simp [kD], fun ha x g hg => ?_⟩
    have e : ∑ i : Fin 3, ∑ j : Fin 3, g i * kD alpha x (3 * i + j) * g j =
        (alpha - 2 / 3) * (g 0) ^ 2 + 2 * (g 1 + g 0 / 2 + g 2 / 2) ^ 2
          + 3 / 2 * (g 2 + g 0 / 3) ^ 2 := by
      simp [Fin.sum_univ_three, kD]; ring
    rw [e]
    have hp : 0 ≤ (alpha - 2 / 3) * (g 0) ^ 2 :=
      mul_nonneg (by linarith) (sq_nonneg _)
    by_cases h0 : g 0 = 0
    · by_cases h2 : g 2 = 0
      · have h1 : g 1 ≠ 0 := by
          intro h1; apply hg; funext i; fin_cases i <;> assumption
        rw [h0, h2]
        have : 0 < (g 1) ^ 2 := by positivity
        nlinarith
      · rw [h0]
        have : 0 < (g 2) ^ 2 := by positivity
        nlinarith [sq_nonneg (g 1 + g 2 / 2)]
    · have : 0 < (alpha - 2 / 3) * (g 0) ^ 2 := mul_pos (by linarith) (by positivity)
      nlinarith [sq_nonneg (g 1 + g 0 / 2 + g 2 / 2), sq_nonneg (g 2 + g 0 / 3)]
  have other : chooseOther alpha dim problem = .set q →
      ∃ K : (Fin d → ℝ) → Nat → ℝ, Evaluates d (d * d) q.perm K ∧ SymmetricTensor d K ∧
      (dim = 2 ∨ 2 / 3 < alpha → PositiveTensor d K) := by
    intro hq
    unfold chooseOther at hq
    rcases hdim with h2 | h3
    · obtain rfl : d = 2 := by omega
      subst h2
      split at hq
      · cases hq; exact ⟨_, permTest2D_eval, A.1, fun _ => A.2⟩
      · split at hq
        · cases hq; exact ⟨_, permTest2D_eval, A.1, fun _ => A.2⟩
        · split at hq
          · cases hq; exact ⟨_, permTest2D_eval, A.1, fun _ => A.2⟩
          · split at hq
            · cases hq; exact ⟨_, permWheeler2012_1_eval, C.1, fun _ => C.2⟩
            · cases hq
    · obtain rfl : d = 3 := by omega
      subst h3
      have D' : (3 : Int) = 2 ∨ 2 / 3 < alpha → PositiveTensor 3 (kD alpha) := fun h =>
        D.2 (h.resolve_left (by omega))
      split at hq
      · cases hq; exact ⟨_, permWheeler2012_2_eval alpha, D.1, D'⟩
      · split at hq
        · cases hq; exact ⟨_, permWheeler2012_2_eval alpha, D.1, D'⟩
        · split at hq
          · cases hq; exact ⟨_, permWheeler2012_2_eval alpha, D.1, D'⟩
          · split at hq <;> cases hq
  cases paper with
  | wheeler2006 =>
    simp only [choose, choose2006] at hq
    split at hq
    · cases hq
    · obtain rfl : dim = 2 := by omega
      obtain rfl : d = 2 := by omega
      split at hq
      · cases hq; exact ⟨_, permTest2D_eval, A.1, fun _ => A.2⟩
      · split at hq
        · cases hq; exact ⟨_, permWheeler2006_1_eval, A.1, fun _ => A.2⟩
        · split at hq
          · cases hq; exact ⟨_, permWheeler2006_2_eval, B.1, fun _ => B.2⟩
          · cases hq
  | wheeler2012 =>
    simp only [choose, choose2012] at hq
    split at hq
    · split at hq
      · cases hq
      · obtain rfl : dim = 2 := by omega
        obtain rfl : d = 2 := by omega
        cases hq; exact ⟨_, permWheeler2012_1_eval, C.1, fun _ => C.2⟩
    · split at hq
      · split at hq
        · cases hq
        · obtain rfl : dim = 3 := by omega
          obtain rfl : d = 3 := by omega
          cases hq; exact ⟨_, permWheeler2012_2_eval alpha, D.1, fun h =>
            D.2 (h.resolve_left (by omega))⟩
      · cases hq
  | column => exact other hq
  | other => exact other hq

/-- The bound on `-alpha` is sharp: at two thirds and below, water would not flow down one of the
gradients. -/
theorem C203_alpha_bound (alpha : ℝ) (h : alpha ≤ 2 / 3) (q : Problem)
    (hq : choose .wheeler2012 alpha 3 2 = .set q) (K : (Fin 3 → ℝ) → Nat → ℝ)
    (hK : Evaluates 3 9 q.perm K) : ¬PositiveTensor 3 K := by
  have hq' : q.perm = permWheeler2012_2 alpha := by
    simp [choose, choose2012] at hq; rw [← hq]
  rw [hq'] at hK
  intro hpos
  have hv : ∀ c, c < 9 → K (fun _ => 0) c = kD alpha (fun _ => 0) c := by
    intro c hc
    have h1 := hK.values 1 (fun _ => 0) (fun _ => 0) 0 (by omega) c hc
    have h2 := (permWheeler2012_2_eval alpha).values 1 (fun _ => 0) (fun _ => 0) 0 (by omega) c hc
    rw [h1] at h2
    exact h2
  have := hpos (fun _ => 0) ![3, -1, -1] (by
    intro h; have := congrFun h 0; simp at this)
  simp only [Fin.sum_univ_three] at this
  simp [hv, kD] at this
  linarith

example : ∃ q, choose .wheeler2012 1 3 2 = .set q ∧ (2 : ℝ) / 3 < 1 :=
  ⟨_, rfl, by norm_num⟩

example : ∃ q, choose .wheeler2012 (1 / 2) 3 2 = .set q ∧ (1 : ℝ) / 2 ≤ 2 / 3 :=
  ⟨_, rfl, by norm_num⟩

/-- C204.  With `-paper wheeler2006` or `-paper wheeler2012` the run either has its four functions
or stops with an error, and it has them for exactly the problems and dimensions of the paper.
Partial: not so for other papers (`C204_violated`). -/
theorem C204_papers_partial (alpha : ℝ) (dim problem : Int) :
    ((∃ q, choose .wheeler2006 alpha dim problem = .set q) ↔
      dim = 2 ∧ (problem = 0 ∨ problem = 1 ∨ problem = 2)) ∧
    ((∃ q, choose .wheeler2012 alpha dim problem = .set q) ↔
      (dim = 2 ∧ problem = 1) ∨ (dim = 3 ∧ problem = 2)) ∧
    (∀ paper, paper = .wheeler2006 ∨ paper = .wheeler2012 →
      choose paper alpha dim problem ≠ .nothing) ∧
    ((∃ q, choose .other alpha dim problem = .set q) ↔
      problem = 1 ∨ problem = 2 ∨ problem = 3 ∨ (problem = 4 ∧ dim = 2)) := by
  refine ⟨?_, ?_, ?_, ?_⟩
  · simp only [choose, choose2006]
    split_ifs <;> simp <;> omega
  · simp only [choose, choose2012]
    split_ifs <;> simp <;> omega
  · rintro paper (rfl | rfl)
    · simp only [choose, choose2006]; split_ifs <;> simp
    · simp only [choose, choose2012]; split_ifs <;> simp
  · simp only [choose, chooseOther]
    split_ifs <;> simp <;> omega

/-- C204 fails.  Without a paper, every problem number the program does not know, and problem 4 in
three dimensions, is accepted with no function set at all; any dimension but 2 gets the functions
of three dimensions; and without the option `-paper` what runs depends on the contents of
uninitialised memory: with the same options the run has its functions for one contents and stops
with an error for another. -/
theorem C204_violated :
    (∀ alpha dim problem, (problem < 1 ∨ 4 < problem ∨ (problem = 4 ∧ dim ≠ 2)) →
      choose .other alpha dim problem = .nothing) ∧
    (∀ alpha problem dim, dim ≠ 2 → choose .other alpha dim problem = choose .other alpha 3 problem) ∧
    (∃ garbage garbage' q, choose (paperOf none garbage) 1 2 3 = .set q ∧
      choose (paperOf none garbage') 1 2 3 = .error) ∧
    (∀ p garbage, paperOf (some p) garbage = p) := by
  refine ⟨?_, ?_, ⟨.other, .wheeler2006, _, rfl, by simp [choose, choose2006, paperOf]⟩,
    fun _ _ => rfl⟩
  · intro alpha dim problem h
    simp only [choose, chooseOther]
    rw [if_neg (by omega), if_neg (by omega), if_neg (by omega)]
    split_ifs
    · omega
    · rfl
    · rfl
  · intro alpha problem dim h
    simp [choose, chooseOther, h]

end TDy.Demo.Props
