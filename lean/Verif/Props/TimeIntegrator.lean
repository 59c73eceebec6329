import Verif.Proofs.TimeIntegrator
import Mathlib.Data.Real.Archimedean

/-!
# C22-C28, C83: the time integrator

`Returns c solver sync s r` : `TDyTimeIntegratorRunToTime(tdy, sync)` started in state `s`
returns with outcome `r`, when the solver behaves as `solver` says.  Theorems start with an empty
trace, so that the trace of the outcome is the trace of this call.
-/

namespace TDy.Time.Props

open TDy.Time TDy.Time.Spec TDy.Time.Proofs

variable {V : Type}

/-- `TDyTimeIntegratorRunToTime` returns. -/
def Returns (c : Cfg) (solver : Nat → V × Bool) (sync : ℝ) (s : Sim V) (r : Res (Sim V)) : Prop :=
  ∃ fuel, runToTime c solver sync fuel s = some r

/-- Invariant rule for a whole call. -/
theorem returns_invariant {c : Cfg} {solver : Nat → V × Bool} {sync : ℝ} {s : Sim V}
    (I E : Loop V → Prop) (h0 : I { s := s, left := 25, flag := false })
    (hs : ∀ l l' k new, l.s.ti.time < sync → I l → RoundOk c sync l l' k new → I l')
    (he : ∀ l l', l.s.ti.time < sync → I l → round c solver sync l = .err l' → E l')
    {r : Res (Sim V)} (h : Returns c solver sync s r) :
    (∀ s', r = .ok s' → ∃ l, I l ∧ sync ≤ l.s.ti.time ∧ s' = finish c l) ∧
    (∀ s', r = .err s' → ∃ l, E l ∧ s' = l.s) := by
  obtain ⟨fuel, h⟩ := h
  unfold runToTime at h
  rw [Option.map_eq_some_iff] at h
  obtain ⟨rl, h1, h2⟩ := h
  have := loop_invariant c solver sync I E
    (fun l l' ht hI hr => by obtain ⟨k, new, ho⟩ := round_ok hr; exact hs l l' k new ht hI ho)
    he fuel _ rl h0 h1
  cases rl with
  | ok l =>
    simp only at h2
    subst h2
    obtain ⟨a, b⟩ := this.1 l rfl
    refine ⟨fun s' e => ?_, fun s' e => by simp at e⟩
    simp only [Res.ok.injEq] at e
    exact ⟨l, a, b, e.symm⟩
  | err l =>
    simp only at h2
    subst h2
    refine ⟨fun s' e => by simp at e, fun s' e => ?_⟩
    simp only [Res.err.injEq] at e
    exact ⟨l, this.2 l rfl, e.symm⟩
  | ub =>
    simp only at h2
    subst h2
    exact ⟨fun s' e => by simp at e, fun s' e => by simp at e⟩

section finishLemmas
variable (c : Cfg) (l : Loop V)

@[simp] theorem finish_ti : (finish c l).ti = l.s.ti := by unfold finish; split <;> rfl
@[simp] theorem finish_prev : (finish c l).solnPrev = l.s.solnPrev := by
  unfold finish; split <;> rfl
@[simp] theorem finish_soln : (finish c l).soln = l.s.soln := by unfold finish; split <;> rfl
@[simp] theorem finish_attempts : attempts (finish c l).trace = attempts l.s.trace := by
  unfold finish; split <;> simp [checkpoint]
@[simp] theorem finish_accepted : accepted (finish c l).trace = accepted l.s.trace := by
  simp [accepted]
@[simp] theorem finish_failed : failed (finish c l).trace = failed l.s.trace := by
  simp [failed]
@[simp] theorem finish_simulated : simulated (finish c l).trace = simulated l.s.trace := by
  simp [simulated]
@[simp] theorem finish_outputs : outputs (finish c l).trace = outputs l.s.trace := by
  unfold finish; split <;> simp [checkpoint]
end finishLemmas

theorem updateDT_dt_pos {ti : Ti} {sync : ℝ} (hdt : 0 < ti.dt) (hg : 0 < ti.growth)
    (hm : 0 < ti.dtMax) : 0 < (updateDT ti sync).dt := by
  simp only [updateDT]
  split <;> split
  · exact hm
  · exact mul_pos (by assumption) hg
  · exact hm
  · exact mul_pos hdt hg

/-! ## C22 -/

/-- No solver call, successful or not, is made for a step ending after the requested time, and a
run that returns successfully ends exactly at the requested time. -/
theorem C22_never_overshoots {c : Cfg} {solver : Nat → V × Bool} {sync : ℝ} {s : Sim V}
    {r : Res (Sim V)} (h : Returns c solver sync s r) (htr : s.trace = [])
    (ht : s.ti.time ≤ sync) (hdt : 0 < s.ti.dt) (hg : 0 < s.ti.growth) (hm : 0 < s.ti.dtMax) :
    (∀ s', r = .ok s' ∨ r = .err s' →
      ∀ a ∈ attempts s'.trace, a.start < sync ∧ 0 < a.dtime ∧ a.start + a.dtime ≤ sync) ∧
    (∀ s', r = .ok s' → s'.ti.time = sync) := by
  have step : ∀ (t dt : ℝ) (soln prev : V) (l : List (Attempt V)), 0 < dt → t < sync →
      dt ≤ sync - t → Tries t dt soln prev l →
      ∀ a ∈ l, a.start < sync ∧ 0 < a.dtime ∧ a.start + a.dtime ≤ sync := by
    intro t dt soln prev l h0 h1 h2 hT a ha
    obtain ⟨e1, ⟨k, e2⟩, -, -⟩ := hT a ha
    have := quarter_pow k
    rw [e1, e2]
    refine ⟨h1, mul_pos h0 this.1, ?_⟩
    have : dt * 0.25 ^ k ≤ dt := mul_le_of_le_one_right h0.le this.2
    linarith
  obtain ⟨hok, herr⟩ := returns_invariant (c := c) (solver := solver) (sync := sync) (s := s)
    (I := fun l => l.s.ti.time ≤ sync ∧ 0 < l.s.ti.dt ∧ 0 < l.s.ti.growth ∧ 0 < l.s.ti.dtMax ∧
      0 < l.left ∧
      ∀ a ∈ attempts l.s.trace, a.start < sync ∧ 0 < a.dtime ∧ a.start + a.dtime ≤ sync)
    (E := fun l =>
      ∀ a ∈ attempts l.s.trace, a.start < sync ∧ 0 < a.dtime ∧ a.start + a.dtime ≤ sync)
    ⟨ht, hdt, hg, hm, by norm_num, by simp [htr]⟩
    (by
      rintro l l' k new hlt ⟨i1, i2, i3, i4, i5, i6⟩ ho
      have hp := setTarget_dt_pos i2 hlt
      have hle := setTarget_dt_le l.s.ti sync
      have hq := quarter_pow k
      have hpk : 0 < (setTargetTime l.s.ti sync).dt * 0.25 ^ k := mul_pos hp hq.1
      have hlek : (setTargetTime l.s.ti sync).dt * 0.25 ^ k ≤ (setTargetTime l.s.ti sync).dt :=
        mul_le_of_le_one_right hp.le hq.2
      refine ⟨?_, ?_, ?_, ?_, ho.leftPos, ?_⟩
      · rw [ho.ti]
        simp only [updateDT]
        split
        · exact le_refl _
        · linarith
      · rw [ho.ti]; exact updateDT_dt_pos hpk i3 i4
      · rw [ho.ti]; exact i3
      · rw [ho.ti]; exact i4
      · rw [ho.trace, attempts_append]
        intro a ha
        rcases List.mem_append.1 ha with ha | ha
        · exact i6 a ha
        · exact step _ _ _ _ _ hp hlt hle.2 ho.tries a ha)
    (by
      rintro l l' hlt ⟨i1, i2, i3, i4, i5, i6⟩ hr
      obtain ⟨-, -, -, -, new, e, -, hT, -⟩ := round_err i5 hr
      rw [e, attempts_append]
      intro a ha
      rcases List.mem_append.1 ha with ha | ha
      · exact i6 a ha
      · exact step _ _ _ _ _ (setTarget_dt_pos i2 hlt) hlt (setTarget_dt_le l.s.ti sync).2 hT a ha)
    h
  refine ⟨?_, ?_⟩
  · rintro s' (e | e)
    · obtain ⟨l, hl, -, e'⟩ := hok s' e
      subst e'
      rw [finish_attempts]; exact hl.2.2.2.2.2
    · obtain ⟨l, hl, e'⟩ := herr s' e
      subst e'; exact hl
  · intro s' e
    obtain ⟨l, hl, hge, e'⟩ := hok s' e
    subst e'
    rw [finish_ti]
    exact le_antisymm hl.1 hge

/-! ## C23 -/

/-- In a run without failed solves that starts within the maximum step, the `i`-th accepted step
has the length `min (dt0*growth^i) dt_max`, shortened only by the requested time, and afterwards
the step is `min (dt0*growth^n) dt_max` after `n` accepted steps, whether or not the last step was
shortened. -/
theorem C23_step_sizes_partial {c : Cfg} {solver : Nat → V × Bool} {sync : ℝ} {s s' : Sim V}
    (h : Returns c solver sync s (.ok s')) (htr : s.trace = []) (hnf : failed s'.trace = [])
    (hdt : 0 < s.ti.dt) (hg : 1 ≤ s.ti.growth) (hm : s.ti.dt ≤ s.ti.dtMax)
    (hsave : s.ti.dtSave = 0) :
    (∀ i a, (accepted s'.trace)[i]? = some a →
      a.dtime = min (min (s.ti.dt * s.ti.growth ^ i) s.ti.dtMax) (sync - a.start)) ∧
    s'.ti.dt = min (s.ti.dt * s.ti.growth ^ (accepted s'.trace).length) s.ti.dtMax ∧
    s'.ti.dtSave = 0 := by
  have hmin : ∀ n, min (min (s.ti.dt * s.ti.growth ^ n) s.ti.dtMax * s.ti.growth) s.ti.dtMax =
      min (s.ti.dt * s.ti.growth ^ (n+1)) s.ti.dtMax := by
    intro n
    have hmax : 0 < s.ti.dtMax := lt_of_lt_of_le hdt hm
    rcases le_total (s.ti.dt * s.ti.growth ^ n) s.ti.dtMax with h1 | h1
    · rw [min_eq_left h1, pow_succ, mul_assoc]
    · have h2 : s.ti.dtMax ≤ s.ti.dtMax * s.ti.growth := le_mul_of_one_le_right hmax.le hg
      have h3 : s.ti.dt * s.ti.growth ^ n ≤ s.ti.dt * s.ti.growth ^ (n+1) := by
        rw [pow_succ, ← mul_assoc]
        exact le_mul_of_one_le_right (by positivity) hg
      rw [min_eq_right h1, min_eq_right h2, min_eq_right (h1.trans h3)]
  obtain ⟨hok, -⟩ := returns_invariant (c := c) (solver := solver) (sync := sync) (s := s)
    (I := fun l => l.s.ti.growth = s.ti.growth ∧ l.s.ti.dtMax = s.ti.dtMax ∧
      (failed l.s.trace = [] →
        l.s.ti.dtSave = 0 ∧
        l.s.ti.dt = min (s.ti.dt * s.ti.growth ^ (accepted l.s.trace).length) s.ti.dtMax ∧
        ∀ i a, (accepted l.s.trace)[i]? = some a →
          a.dtime = min (min (s.ti.dt * s.ti.growth ^ i) s.ti.dtMax) (sync - a.start)))
    (E := fun _ => True)
    ⟨rfl, rfl, by intro _; simp [htr, hsave, accepted, hm]⟩
    (by
      rintro l l' k new hlt ⟨i1, i2, i3⟩ ho
      refine ⟨by rw [ho.ti]; exact i1, by rw [ho.ti]; exact i2, ?_⟩
      intro hf
      rw [ho.trace, failed_append] at hf
      obtain ⟨hf1, hf2⟩ := List.append_eq_nil_iff.1 hf
      obtain ⟨j1, j2, j3⟩ := i3 hf1
      have hk : k = 0 := by rw [← ho.failures, hf2]; rfl
      subst hk
      obtain ⟨a, ha1, ha2, -⟩ := ho.acc
      have hlen : (accepted l'.s.trace).length = (accepted l.s.trace).length + 1 := by
        rw [ho.trace, accepted_append, ha1]; simp
      have hdtpos : 0 < l.s.ti.dt := by
        rw [j2]
        exact lt_min (by positivity) (lt_of_lt_of_le hdt hm)
      refine ⟨?_, ?_, ?_⟩
      · rw [ho.ti]
        simp only [updateDT, setTargetTime]
        by_cases hc : l.s.ti.dt > sync - l.s.ti.time
        · simp only [if_pos hc, if_pos hdtpos]
        · simp only [if_neg hc, j1, ite_self]
      · rw [hlen, ← hmin, ← j2, ho.ti]
        simp only [updateDT, setTargetTime, i1, i2]
        by_cases hc : l.s.ti.dt > sync - l.s.ti.time
        · simp only [if_pos hc, if_pos hdtpos]
          split
          · rename_i hx; rw [min_eq_right (le_of_lt hx)]
          · rename_i hx; rw [min_eq_left (not_lt.1 hx)]
        · simp only [if_neg hc, j1, lt_irrefl, if_false, gt_iff_lt, pow_zero, mul_one]
          split
          · rename_i hx; rw [min_eq_right (le_of_lt hx)]
          · rename_i hx; rw [min_eq_left (not_lt.1 hx)]
      · intro i b hb
        rw [ho.trace, accepted_append, ha1] at hb
        by_cases hi : i < (accepted l.s.trace).length
        · rw [List.getElem?_append_left hi] at hb
          exact j3 i b hb
        · rw [List.getElem?_append_right (by omega)] at hb
          have hi0 : i = (accepted l.s.trace).length := by
            by_contra hne
            rw [List.getElem?_eq_none (by simp; omega)] at hb
            simp at hb
          subst hi0
          simp only [Nat.sub_self, List.getElem?_cons_zero, Option.some.injEq] at hb
          subst hb
          have hmem : a ∈ attempts new := by
            have : a ∈ accepted new := by rw [ha1]; simp
            exact (List.mem_filter.1 this).1
          have hst := (ho.tries a hmem).1
          rw [ha2, hst, ← j2, pow_zero, mul_one]
          simp only [setTargetTime]
          split
          · rename_i hx; rw [min_eq_right (le_of_lt hx)]
          · rename_i hx; rw [min_eq_left (not_lt.1 hx)])
    (fun _ _ _ _ _ => trivial) h
  obtain ⟨l, ⟨-, -, hl⟩, -, e⟩ := hok s' rfl
  subst e
  simp only [finish_failed] at hnf
  obtain ⟨a, b, d⟩ := hl hnf
  simp only [finish_ti, finish_accepted]
  exact ⟨d, b, a⟩

/-- The "never exceeds `dt_max`" part needs the first step to respect it: a first step above
`dt_max` (option `-tdy_dt_init`, or `TDyTimeIntegratorSetTimeStep`) is used as it is. -/
theorem C23_initial_step_unchecked {c : Cfg} {solver : Nat → V × Bool} {sync : ℝ} {s s' : Sim V}
    (h : Returns c solver sync s (.ok s')) (ht : s.ti.time + s.ti.dt ≤ sync)
    (hpos : 0 < s.ti.dt) (hdt : s.ti.dtMax < s.ti.dt) :
    ∃ a ∈ attempts s'.trace, s.ti.dtMax < a.dtime := by
  obtain ⟨hok, -⟩ := returns_invariant (c := c) (solver := solver) (sync := sync) (s := s)
    (I := fun l => l = { s := s, left := 25, flag := false } ∨
      ∃ a ∈ attempts l.s.trace, s.ti.dtMax < a.dtime)
    (E := fun _ => True) (Or.inl rfl)
    (by
      rintro l l' k new hlt hI ho
      right
      rw [ho.trace, attempts_append]
      rcases hI with e | ⟨a, ha, hd⟩
      · subst e
        have hdt' : (setTargetTime s.ti sync).dt = s.ti.dt := by
          simp only [setTargetTime]
          rw [if_neg]; simp only [gt_iff_lt, not_lt]; linarith
        rcases Nat.eq_zero_or_pos k with hk | hk
        · subst hk
          obtain ⟨a, ha1, ha2, -⟩ := ho.acc
          refine ⟨a, List.mem_append_right _ ?_, ?_⟩
          · have : a ∈ accepted new := by rw [ha1]; simp
            exact (List.mem_filter.1 this).1
          · rw [ha2, pow_zero, mul_one]
            simp only [hdt']; exact hdt
        · obtain ⟨a, ha1, -, ha2⟩ := ho.firstFailed hk
          refine ⟨a, List.mem_append_right _ (List.mem_filter.1 ha1).1, ?_⟩
          rw [ha2]
          simp only [hdt']; exact hdt
      · exact ⟨a, List.mem_append_left _ ha, hd⟩)
    (fun _ _ _ _ _ => trivial) h
  obtain ⟨l, hl, hge, e⟩ := hok s' rfl
  subst e
  rw [finish_attempts]
  rcases hl with e | hl
  · subst e
    simp only at hge
    linarith
  · exact hl

/-- The step that was set is the step that is tried first, shortened only by the requested time; and a step that
was set leaves the rest of the state alone. -/
theorem C23_step_that_was_set {c : Cfg} {solver : Nat → V × Bool} {sync dt : ℝ} {s s' : Sim V}
    (h : Returns c solver sync (setTimeStep s dt) (.ok s')) (htr : s.trace = []) (ht : s.ti.time < sync) :
    ∃ a, (attempts s'.trace).head? = some a ∧ a.start = s.ti.time ∧ a.dtime = min dt (sync - s.ti.time) := by
  have hdt : (setTargetTime (setTimeStep s dt).ti sync).dt = min dt (sync - s.ti.time) := by
    show (if (setTimeStep s dt).ti.dt > sync - (setTimeStep s dt).ti.time
      then sync - (setTimeStep s dt).ti.time else (setTimeStep s dt).ti.dt) = min dt (sync - s.ti.time)
    split
    · rename_i hx; exact (min_eq_right (le_of_lt hx)).symm
    · rename_i hx; exact (min_eq_left (not_lt.1 hx)).symm
  obtain ⟨hok, -⟩ := returns_invariant (c := c) (solver := solver) (sync := sync) (s := setTimeStep s dt)
    (I := fun l => l = { s := setTimeStep s dt, left := 25, flag := false } ∨
      ∃ a, (attempts l.s.trace).head? = some a ∧ a.start = s.ti.time ∧ a.dtime = min dt (sync - s.ti.time))
    (E := fun _ => True) (Or.inl rfl)
    (by
      rintro l l' k new hlt hI ho
      right
      rw [ho.trace, attempts_append]
      rcases hI with e | ⟨a, ha, hd⟩
      · subst e
        have h0 : attempts (setTimeStep s dt).trace = [] := by
          show attempts s.trace = []
          rw [htr]; rfl
        simp only [h0, List.nil_append]
        rw [ho.order]
        obtain ⟨b, hb1, hb2, -⟩ := ho.acc
        rcases Nat.eq_zero_or_pos k with hk | hk
        · subst hk
          have hf : failed new = [] := List.eq_nil_of_length_eq_zero ho.failures
          refine ⟨b, by rw [hf, hb1]; rfl, ?_, ?_⟩
          · have hmem : b ∈ attempts new := by rw [ho.order, hb1]; simp
            exact (ho.tries b hmem).1
          · rw [hb2, pow_zero, mul_one]; exact hdt
        · obtain ⟨a, ha, ha1, ha2⟩ := ho.headFailed hk
          refine ⟨a, ?_, ha1, by rw [ha2]; exact hdt⟩
          cases hf : failed new with
          | nil => rw [hf] at ha; cases ha
          | cons x xs => rw [hf] at ha; exact ha
      · refine ⟨a, ?_, hd⟩
        cases hf : attempts l.s.trace with
        | nil => rw [hf] at ha; cases ha
        | cons x xs => rw [hf] at ha; exact ha)
    (fun _ _ _ _ _ => trivial) h
  obtain ⟨l, hl, hge, e⟩ := hok s' rfl
  subst e
  rw [finish_attempts]
  rcases hl with e | hl
  · subst e
    exact absurd ht (not_lt.2 hge)
  · exact hl

/-- Without options the first step is 1 and every step is a quarter longer than the one before. -/
theorem C23_steps_by_default {c : Cfg} {solver : Nat → V × Bool} {sync : ℝ} {s s' : Sim V}
    (h : Returns c solver sync s (.ok s')) (htr : s.trace = []) (hnf : failed s'.trace = [])
    (hs : s.ti = Ti.default) :
    ∀ i a, (accepted s'.trace)[i]? = some a →
      a.dtime = min (min ((5/4 : ℝ) ^ i) (10 ^ 20)) (sync - a.start) := by
  intro i a ha
  rw [(C23_step_sizes_partial h htr hnf (by rw [hs]; norm_num [Ti.default]) (by rw [hs]; norm_num [Ti.default])
    (by rw [hs]; norm_num [Ti.default]) (by rw [hs]; rfl)).1 i a ha, hs]
  norm_num [Ti.default]

/-! ## C24 -/

/-- Every call returns, for every solver, if the growth factor is at least one. -/
theorem C24_terminates (c : Cfg) (solver : Nat → V × Bool) (sync : ℝ) (s : Sim V)
    (hdt : 0 < s.ti.dt) (hg : 1 ≤ s.ti.growth) (hm : 0 < s.ti.dtMax) :
    ∃ r, Returns c solver sync s r := by
  set m := min s.ti.dt s.ti.dtMax with hmdef
  have hmpos : 0 < m := lt_min hdt hm
  have key : ∀ (N : Nat) (l : Loop V), l.s.ti.growth = s.ti.growth → l.s.ti.dtMax = s.ti.dtMax →
      0 < l.left → l.left ≤ 25 → m * 0.25 ^ (25 - l.left) ≤ l.s.ti.dt →
      sync - l.s.ti.time ≤ N * (m * 0.25 ^ 25) →
      ∃ f r, loop c solver sync f l = some r := by
    intro N
    induction N with
    | zero =>
      intro l _ _ _ _ _ hN
      refine ⟨1, .ok l, ?_⟩
      rw [loop, if_neg]
      simp only [Nat.cast_zero, zero_mul] at hN
      linarith
    | succ N ih =>
      intro l g1 g2 g3 g4 g5 hN
      by_cases hlt : l.s.ti.time < sync
      · cases hr : round c solver sync l with
        | err l' => exact ⟨1, .err l', by rw [loop, if_pos hlt, hr]⟩
        | ub => exact ⟨1, .ub, by rw [loop, if_pos hlt, hr]⟩
        | ok l' =>
          obtain ⟨k, new, ho⟩ := round_ok hr
          by_cases hdone : l'.s.ti.time < sync
          · have hq := quarter_pow k
            have hq2 := quarter_pow (25 - l.left)
            have hldt : 0 < l.s.ti.dt := lt_of_lt_of_le (mul_pos hmpos hq2.1) g5
            -- the step was not shortened and nothing was saved
            have hns : ¬ (setTargetTime l.s.ti sync).dtSave > 0 := by
              intro hpos
              rw [ho.ti] at hdone
              simp only [updateDT, if_pos hpos, lt_irrefl] at hdone
            have hnc : ¬ l.s.ti.dt > sync - l.s.ti.time := by
              intro hc
              apply hns
              simp only [setTargetTime, if_pos hc]; exact hldt
            have hdt' : (setTargetTime l.s.ti sync).dt = l.s.ti.dt := by
              simp only [setTargetTime, if_neg hnc]
            have hpow : m * 0.25 ^ (25 - l.left) * 0.25 ^ k = m * 0.25 ^ (25 - l'.left) := by
              rw [mul_assoc, ← pow_add]
              congr 2
              have := ho.left; omega
            have hstep : m * 0.25 ^ (25 - l'.left) ≤ l.s.ti.dt * 0.25 ^ k := by
              rw [← hpow]; exact mul_le_mul_of_nonneg_right g5 hq.1.le
            have hfloor : m * 0.25 ^ 25 ≤ m * 0.25 ^ (25 - l'.left) := by
              apply mul_le_mul_of_nonneg_left _ hmpos.le
              exact pow_le_pow_of_le_one (by norm_num) (by norm_num) (by omega)
            have htime : l'.s.ti.time = l.s.ti.time + l.s.ti.dt * 0.25 ^ k := by
              rw [ho.ti]; simp only [updateDT, if_neg hns, hdt']
            obtain ⟨f, r, hf⟩ := ih l' (by rw [ho.ti]; exact g1) (by rw [ho.ti]; exact g2)
              ho.leftPos (by have := ho.left; omega)
              (by
                rw [ho.ti]
                simp only [updateDT, if_neg hns, hdt']
                split
                · have : m ≤ s.ti.dtMax := min_le_right _ _
                  have h2 := quarter_pow (25 - l'.left)
                  have : m * 0.25 ^ (25 - l'.left) ≤ m := mul_le_of_le_one_right hmpos.le h2.2
                  change _ ≤ l.s.ti.dtMax
                  rw [g2]; linarith
                · change _ ≤ l.s.ti.dt * 0.25 ^ k * l.s.ti.growth
                  rw [g1]
                  have : l.s.ti.dt * 0.25 ^ k ≤ l.s.ti.dt * 0.25 ^ k * s.ti.growth :=
                    le_mul_of_one_le_right (mul_pos hldt hq.1).le hg
                  linarith)
              (by
                rw [htime]
                push_cast at hN
                have := hfloor.trans hstep
                linarith)
            exact ⟨f + 1, r, by rw [loop, if_pos hlt, hr]; exact hf⟩
          · exact ⟨2, .ok l', by rw [loop, if_pos hlt, hr]; simp only; rw [loop, if_neg hdone]⟩
      · exact ⟨1, .ok l, by rw [loop, if_neg hlt]⟩
  have hd : 0 < m * 0.25 ^ 25 := by positivity
  obtain ⟨N, hN⟩ := exists_nat_ge ((sync - s.ti.time) / (m * 0.25 ^ 25))
  rw [div_le_iff₀ hd] at hN
  obtain ⟨f, r, hf⟩ := key N { s := s, left := 25, flag := false } rfl rfl (by norm_num)
    (by norm_num) (by simp [hmdef]) hN
  exact ⟨_, f, by unfold runToTime; rw [hf]; rfl⟩

/-- A call makes at most 25 failing solves; it reports an error only after exactly 25 of them, or
after the first if the discretization cannot cut a step. -/
theorem C24_at_most_25_failures {c : Cfg} {solver : Nat → V × Bool} {sync : ℝ} {s : Sim V}
    {r : Res (Sim V)} (h : Returns c solver sync s r) (htr : s.trace = []) :
    (∀ s', r = .ok s' → (failed s'.trace).length < 25) ∧
    (∀ s', r = .err s' → (failed s'.trace).length ≤ 25 ∧
      (c.canCut = true → (failed s'.trace).length = 25)) := by
  obtain ⟨hok, herr⟩ := returns_invariant (c := c) (solver := solver) (sync := sync) (s := s)
    (I := fun l => 0 < l.left ∧ l.left + (failed l.s.trace).length = 25)
    (E := fun l => (failed l.s.trace).length ≤ 25 ∧
      (c.canCut = true → (failed l.s.trace).length = 25))
    ⟨by norm_num, by simp [htr, failed]⟩
    (by
      rintro l l' k new hlt ⟨i1, i2⟩ ho
      refine ⟨ho.leftPos, ?_⟩
      rw [ho.trace, failed_append, List.length_append, ho.failures]
      have := ho.left; omega)
    (by
      rintro l l' hlt ⟨i1, i2⟩ hr
      obtain ⟨-, -, -, -, new, e, -, -, -, -, h6, h7, -⟩ := round_err i1 hr
      rw [e, failed_append, List.length_append]
      refine ⟨by omega, fun hc => ?_⟩
      have := h7 hc; omega)
    h
  constructor
  · intro s' e
    obtain ⟨l, hl, -, e'⟩ := hok s' e
    subst e'
    rw [finish_failed]; omega
  · intro s' e
    obtain ⟨l, hl, e'⟩ := herr s' e
    subst e'; exact hl

/-- A successful solve at every step, no checkpoints: a round does not fail. -/
theorem round_success {c : Cfg} (hc : c.ckEnable = false) {solver : Nat → V × Bool}
    (hs : ∀ n, (solver n).2 = true) {sync : ℝ} {l : Loop V} (hl : 0 < l.left) :
    ∃ l', round c solver sync l = .ok l' ∧ l'.left = l.left := by
  obtain ⟨n, hn⟩ : ∃ n, l.left = n + 1 := ⟨l.left - 1, by omega⟩
  simp only [round, hn, inner, hs, if_true, maybeCheckpoint, hc, Bool.false_eq_true, if_false]
  exact ⟨_, rfl, rfl⟩

/-- The growth factor must be at least one: with a growth factor 1/2 and a solver that always
succeeds, a call from time 0 with step 1 to time 3 never returns. -/
theorem C24_shrinking_steps_never_return (c : Cfg) (hc : c.ckEnable = false)
    (solver : Nat → V × Bool) (hs : ∀ n, (solver n).2 = true) (s : Sim V)
    (hti : s.ti = { dtMax := 1e20, growth := 1/2, dt := 1, dtSave := 0, time := 0, istep := 0 })
    (r : Res (Sim V)) : ¬ Returns c solver 3 s r := by
  have key : ∀ (f : Nat) (l : Loop V), l.s.ti.growth = 1/2 → l.s.ti.dtMax = 1e20 →
      l.left = 25 → l.s.ti.dtSave = 0 → 0 < l.s.ti.dt → l.s.ti.dt ≤ 1 →
      l.s.ti.time + 2 * l.s.ti.dt = 2 → loop c solver 3 f l = none := by
    intro f
    induction f with
    | zero => intros; rfl
    | succ f ih =>
      intro l g1 g2 g3 g4 g5 g6 g7
      have hlt : l.s.ti.time < 3 := by linarith
      obtain ⟨l', hr, hleft⟩ := round_success (sync := 3) hc hs (l := l) (by omega)
      rw [loop, if_pos hlt, hr]
      obtain ⟨k, new, ho⟩ := round_ok hr
      have hk : k = 0 := by have := ho.left; omega
      subst hk
      have hnc : ¬ l.s.ti.dt > 3 - l.s.ti.time := by simp only [gt_iff_lt, not_lt]; linarith
      have hti' : l'.s.ti = { l.s.ti with dt := l.s.ti.dt * (1/2)
                                          time := l.s.ti.time + l.s.ti.dt
                                          istep := l.s.ti.istep + 1 } := by
        rw [ho.ti]
        have hx : ¬ l.s.ti.dt * (1/2) > 1e20 := by
          simp only [gt_iff_lt, not_lt]; norm_num; linarith
        simp only [updateDT, setTargetTime, if_neg hnc, g4, gt_iff_lt, lt_irrefl, if_false,
          pow_zero, mul_one, g1, g2]
        rw [if_neg hx]
      apply ih l'
      · rw [hti']; exact g1
      · rw [hti']; exact g2
      · omega
      · rw [hti']; exact g4
      · rw [hti']; simp only; linarith
      · rw [hti']; simp only; linarith
      · rw [hti']; simp only; linarith
  rintro ⟨f, h⟩
  unfold runToTime at h
  rw [key f _ (by rw [hti]) (by rw [hti]) rfl (by rw [hti]) (by rw [hti]; norm_num)
    (by rw [hti]) (by rw [hti]; norm_num)] at h
  simp at h

/-! ## C25 -/

/-- Partial C25: if no solve failed on a step shortened to end at the requested time (in
particular if none failed), the time reported is the start time plus the lengths of the steps
solved, and nothing is left over for the next call. -/
theorem C25_reported_time_partial {c : Cfg} {solver : Nat → V × Bool} {sync : ℝ} {s s' : Sim V}
    (h : Returns c solver sync s (.ok s')) (htr : s.trace = []) (hsave : s.ti.dtSave = 0)
    (hdt : 0 < s.ti.dt) (hg : 0 < s.ti.growth) (hm : 0 < s.ti.dtMax)
    (hnf : ∀ a ∈ failed s'.trace, a.start + a.dtime ≠ sync) :
    s'.ti.time = s.ti.time + simulated s'.trace ∧ s'.ti.dtSave = 0 ∧ 0 < s'.ti.dt := by
  obtain ⟨hok, -⟩ := returns_invariant (c := c) (solver := solver) (sync := sync) (s := s)
    (I := fun l => 0 < l.s.ti.dt ∧ 0 < l.s.ti.growth ∧ 0 < l.s.ti.dtMax ∧
      ((∀ a ∈ failed l.s.trace, a.start + a.dtime ≠ sync) →
        l.s.ti.time = s.ti.time + simulated l.s.trace ∧ l.s.ti.dtSave = 0))
    (E := fun _ => True)
    ⟨hdt, hg, hm, by intro _; simp [htr, hsave, simulated, accepted]⟩
    (by
      rintro l l' k new hlt ⟨i1, i2, i3, i4⟩ ho
      have hp := setTarget_dt_pos i1 hlt
      have hq := quarter_pow k
      refine ⟨?_, ?_, ?_, ?_⟩
      · rw [ho.ti]; exact updateDT_dt_pos (mul_pos hp hq.1) i2 i3
      · rw [ho.ti]; exact i2
      · rw [ho.ti]; exact i3
      · intro hf
        rw [ho.trace] at hf
        simp only [failed_append] at hf
        obtain ⟨j1, j2⟩ := i4 (fun a ha => hf a (List.mem_append_left _ ha))
        obtain ⟨a, ha1, ha2, -⟩ := ho.acc
        have hsim : simulated new = (setTargetTime l.s.ti sync).dt * 0.25 ^ k := by
          simp [simulated, ha1, ha2]
        rw [ho.trace, simulated_append, hsim, ho.ti]
        by_cases hc : l.s.ti.dt > sync - l.s.ti.time
        · have hk : k = 0 := by
            by_contra hk
            obtain ⟨b, hb1, hb2, hb3⟩ := ho.firstFailed (Nat.pos_of_ne_zero hk)
            apply hf b (List.mem_append_right _ hb1)
            rw [hb2, hb3]
            simp only [setTargetTime, if_pos hc]; ring
          subst hk
          simp only [updateDT, setTargetTime, if_pos hc, if_pos i1, pow_zero, mul_one]
          exact ⟨by linarith, trivial⟩
        · simp only [updateDT, setTargetTime, if_neg hc, j2, gt_iff_lt, lt_irrefl, if_false]
          exact ⟨by rw [j1]; ring, trivial⟩)
    (fun _ _ _ _ _ => trivial) h
  obtain ⟨l, ⟨h1, -, -, hl⟩, -, e⟩ := hok s' rfl
  subst e
  simp only [finish_failed] at hnf
  simp only [finish_ti, finish_simulated]
  exact ⟨(hl hnf).1, (hl hnf).2, h1⟩

/-- C25 fails: whenever the step has to be shortened to reach the requested time and a solve fails
on it, a run that returns successfully reports the requested time although it has simulated
strictly less. -/
theorem C25_time_skipped {c : Cfg} {solver : Nat → V × Bool} {sync : ℝ} {s s' : Sim V}
    (h : Returns c solver sync s (.ok s')) (htr : s.trace = [])
    (ht : s.ti.time < sync) (hdt : sync - s.ti.time < s.ti.dt)
    (hf : failed s'.trace ≠ []) :
    s'.ti.time = sync ∧ s.ti.time + simulated s'.trace < sync := by
  obtain ⟨hok, -⟩ := returns_invariant (c := c) (solver := solver) (sync := sync) (s := s)
    (I := fun l => l = { s := s, left := 25, flag := false } ∨
      (l.s.ti.time = sync ∧ (failed l.s.trace ≠ [] → s.ti.time + simulated l.s.trace < sync)))
    (E := fun _ => True) (Or.inl rfl)
    (by
      rintro l l' k new hlt hI ho
      rcases hI with e | ⟨hl, -⟩
      · subst e
        right
        simp only at *
        have hc : s.ti.dt > sync - s.ti.time := hdt
        have hpos : s.ti.dt > 0 := by linarith
        obtain ⟨a, ha1, ha2, -⟩ := ho.acc
        have hsim : simulated new = (sync - s.ti.time) * 0.25 ^ k := by
          simp only [simulated, ha1, List.map_cons, List.map_nil, List.sum_cons, List.sum_nil,
            add_zero, ha2, setTargetTime, if_pos hc]
        refine ⟨?_, ?_⟩
        · rw [ho.ti]; simp only [updateDT, setTargetTime, if_pos hc, if_pos hpos]
        · intro hne
          rw [ho.trace, htr, List.nil_append] at hne ⊢
          have hk : k ≠ 0 := by
            intro hk
            apply hne
            rw [← List.length_eq_zero_iff, ho.failures, hk]
          rw [hsim]
          have : (0.25:ℝ) ^ k < 1 := pow_lt_one₀ (by norm_num) (by norm_num) hk
          nlinarith
      · linarith)
    (fun _ _ _ _ _ => trivial) h
  obtain ⟨l, hl, hge, e⟩ := hok s' rfl
  subst e
  simp only [finish_failed] at hf
  simp only [finish_ti, finish_simulated]
  rcases hl with e | ⟨h1, h2⟩
  · subst e; simp only at hge; linarith
  · exact ⟨h1, h2 hf⟩

/-- C25 fails across calls: after a call that reported an error on a shortened step, the next call
that returns successfully reports its requested time after a single step, however short. -/
theorem C25_time_skipped_after_error {c : Cfg} {solver solver2 : Nat → V × Bool} {sync sync2 : ℝ}
    {s s1 s2 : Sim V} (h : Returns c solver sync s (.err s1)) (ht : s.ti.time < sync)
    (hdt : sync - s.ti.time < s.ti.dt)
    (h2 : Returns c solver2 sync2 { s1 with trace := [] } (.ok s2))
    (hpos : 0 < s1.ti.dt) (hlt : s1.ti.time + s1.ti.dt < sync2) :
    s2.ti.time = sync2 ∧ s1.ti.time + simulated s2.trace < sync2 := by
  have hsave : 0 < s1.ti.dtSave := by
    obtain ⟨-, herr⟩ := returns_invariant (c := c) (solver := solver) (sync := sync) (s := s)
      (I := fun l => l = { s := s, left := 25, flag := false } ∨ l.s.ti.time = sync)
      (E := fun l => 0 < l.s.ti.dtSave) (Or.inl rfl)
      (by
        rintro l l' k new hlt hI ho
        rcases hI with e | hl
        · subst e
          right
          have hc : s.ti.dt > sync - s.ti.time := hdt
          have hpos : s.ti.dt > 0 := by linarith
          rw [ho.ti]; simp only [updateDT, setTargetTime, if_pos hc, if_pos hpos]
        · linarith)
      (by
        rintro l l' hlt hI hr
        rcases hI with e | hl
        · subst e
          obtain ⟨-, -, h3, -⟩ := round_err (by norm_num) hr
          have hc : s.ti.dt > sync - s.ti.time := hdt
          rw [h3]; simp only [setTargetTime, if_pos hc]; linarith
        · linarith) h
    obtain ⟨l, hl, e⟩ := herr s1 rfl
    subst e; exact hl
  obtain ⟨hok, -⟩ := returns_invariant (c := c) (solver := solver2) (sync := sync2)
    (s := { s1 with trace := [] })
    (I := fun l => l = { s := { s1 with trace := [] }, left := 25, flag := false } ∨
      (l.s.ti.time = sync2 ∧ s1.ti.time + simulated l.s.trace < sync2))
    (E := fun _ => True) (Or.inl rfl)
    (by
      rintro l l' k new hlt' hI ho
      rcases hI with e | ⟨hl, -⟩
      · subst e
        right
        have hc : ¬ s1.ti.dt > sync2 - s1.ti.time := by simp only [gt_iff_lt, not_lt]; linarith
        obtain ⟨a, ha1, ha2, -⟩ := ho.acc
        have hsim : simulated new = s1.ti.dt * 0.25 ^ k := by
          simp only [simulated, ha1, List.map_cons, List.map_nil, List.sum_cons, List.sum_nil,
            add_zero, ha2, setTargetTime, if_neg hc]
        refine ⟨?_, ?_⟩
        · rw [ho.ti]; simp only [updateDT, setTargetTime, if_neg hc, gt_iff_lt, if_pos hsave]
        · rw [ho.trace, simulated_append, hsim]
          have h0 : simulated ([] : List (Ev V)) = 0 := rfl
          simp only [h0, zero_add]
          have : s1.ti.dt * 0.25 ^ k ≤ s1.ti.dt :=
            mul_le_of_le_one_right hpos.le (quarter_pow k).2
          linarith
      · linarith)
    (fun _ _ _ _ _ => trivial) h2
  obtain ⟨l, hl, hge, e⟩ := hok s2 rfl
  subst e
  simp only [finish_ti, finish_simulated]
  rcases hl with e | hl
  · subst e; simp only at hge; linarith
  · exact hl

/-! ### A concrete run: the first solve fails on a shortened step -/

/-- Solver that fails once. -/
def failOnce : Nat → Nat × Bool := fun n => (n + 1, n != 0)

noncomputable def start0 : Sim Nat :=
  { ti := { dtMax := 1e20, growth := 1.25, dt := 2, dtSave := 0, time := 0, istep := 0 }
    soln := 0, solnPrev := 0, dtime := 0, calls := 0, trace := [] }

def cfg0 : Cfg := { canCut := true, ckEnable := true, ckInterval := 2, outInterval := 1 }

/-- The state the run below ends in. -/
noncomputable def end0 : Sim Nat :=
  ⟨⟨1e20, 1.25, 2.5, 0, 1, 1⟩, 2, 2, 0.25, 2,
    [.attempt ⟨0, 1, 0, 0, 1, false⟩, .output 0 0 0, .attempt ⟨0, 0.25, 0, 0, 2, true⟩,
     .output 0.25 1 2, .checkpoint 1 1 2]⟩

theorem concrete_run : ∃ s', Returns cfg0 failOnce 1 start0 (.ok s') ∧ failed s'.trace ≠ [] ∧
    outputs s'.trace = [0, 1] ∧ checkpoints s'.trace = [2] ∧ (accepted s'.trace).length = 1 := by
  refine ⟨end0, ⟨2, ?_⟩, ?_⟩
  · norm_num [runToTime, loop, round, inner, startStep, setTargetTime, start0, failOnce, cfg0,
      solve, cutStep, restore, maybeOutput, accept, maybeCheckpoint, updateDT, checkpoint, finish,
      end0]
  · exact ⟨by simp [failed, attempts, end0], rfl, rfl, rfl⟩

/-- The hypotheses of `C25_time_skipped` are met. -/
example : ∃ s', Returns cfg0 failOnce 1 start0 (.ok s') ∧ s'.ti.time = 1 ∧
    simulated s'.trace < 1 := by
  obtain ⟨s', h, hf, -⟩ := concrete_run
  have := C25_time_skipped h rfl (by norm_num [start0]) (by norm_num [start0]) hf
  refine ⟨s', h, this.1, ?_⟩
  have h2 := this.2
  simpa [start0] using h2

/-! ## C26 -/

/-- C26 fails: with TS, after a first run from time 0 to `t1 > 0`, a second run to any `t2 > t1`
does not end at `t2`. -/
theorem C26_second_run_wrong {t1 t2 : ℝ} (h1 : 0 < t1) (h2 : t1 < t2) :
    runToTimeTS (runToTimeTS 0 t1) t2 ≠ t2 := by
  simp only [runToTimeTS, tsSolve, sub_zero, if_pos h1]
  split <;> intro h <;> linarith

/-- C26 fails: if the second interval is no longer than the first, the second run does nothing. -/
theorem C26_second_run_stuck {t1 t2 : ℝ} (h1 : 0 < t1) (h2 : t2 ≤ 2*t1) :
    runToTimeTS (runToTimeTS 0 t1) t2 = t1 := by
  simp only [runToTimeTS, tsSolve, sub_zero, if_pos h1]
  rw [if_neg (by linarith)]

/-- Partial C26: the first run, from time 0, ends at the requested time. -/
theorem C26_first_run_partial {t1 : ℝ} (h1 : 0 < t1) : runToTimeTS 0 t1 = t1 := by
  simp only [runToTimeTS, tsSolve, sub_zero, if_pos h1]

/-! ## C27 -/

/-- With checkpoints on, when a call returns after accepting at least one step, the last
checkpoint written holds the last accepted solution. -/
theorem C27_last_solution_on_disk {c : Cfg} {solver : Nat → V × Bool} {sync : ℝ} {s s' : Sim V}
    (h : Returns c solver sync s (.ok s')) (htr : s.trace = []) (hc : c.ckEnable = true)
    (hacc : accepted s'.trace ≠ []) :
    (checkpoints s'.trace).getLast? = (accepted s'.trace).getLast?.map (·.result) ∧
    (accepted s'.trace).getLast?.map (·.result) = some s'.solnPrev := by
  obtain ⟨hok, -⟩ := returns_invariant (c := c) (solver := solver) (sync := sync) (s := s)
    (I := fun l => accepted l.s.trace ≠ [] →
      (accepted l.s.trace).getLast?.map (·.result) = some l.s.solnPrev ∧
      (l.flag = false → (checkpoints l.s.trace).getLast? = some l.s.solnPrev))
    (E := fun _ => True) (by intro h; simp [htr, accepted] at h)
    (by
      rintro l l' k new hlt hI ho _
      obtain ⟨a, ha1, -, ha2⟩ := ho.acc
      refine ⟨?_, ?_⟩
      · rw [ho.trace, accepted_append, ha1]
        simp [ha2]
      · intro hfl
        rcases ho.ck hc with ⟨-, h2⟩ | ⟨h1, -⟩
        · rw [ho.trace, checkpoints_append, h2]; simp
        · rw [h1] at hfl; simp at hfl)
    (fun _ _ _ _ _ => trivial) h
  obtain ⟨l, hl, -, e⟩ := hok s' rfl
  subst e
  rw [finish_accepted] at hacc ⊢
  obtain ⟨h1, h2⟩ := hl hacc
  rw [finish_prev]
  refine ⟨?_, h1⟩
  rw [h1]
  unfold finish
  cases hfl : l.flag with
  | true => simp [hc, checkpoint]
  | false => simp [h2 hfl]

/-- A checkpoint interval of zero (accepted by the option parser) divides by zero as soon as a
step is accepted. -/
theorem C27_zero_interval_undefined {c : Cfg} {solver : Nat → V × Bool} {sync : ℝ} {s : Sim V}
    (hc : c.ckEnable = true) (hz : c.ckInterval = 0) (ht : s.ti.time < sync)
    (hs : (solver s.calls).2 = true) : Returns c solver sync s .ub := by
  refine ⟨1, ?_⟩
  have : round c solver sync { s := s, left := 25, flag := false } = .ub := by
    simp only [round, inner, startStep, hs, if_true, maybeCheckpoint, hc, hz]
  simp only [runToTime, loop, if_pos ht, this, Option.map_some]

/-- Outside that case no call is undefined. -/
theorem C27_defined {c : Cfg} {solver : Nat → V × Bool} {sync : ℝ} {s : Sim V}
    (hz : c.ckInterval ≠ 0) : ¬ Returns c solver sync s .ub := by
  rintro ⟨f, h⟩
  have key : ∀ (f : Nat) (l : Loop V), loop c solver sync f l ≠ some .ub := by
    intro f
    induction f with
    | zero => intro l h; simp [loop] at h
    | succ f ih =>
      intro l h
      rw [loop] at h
      split at h
      · cases hr : round c solver sync l with
        | ok l' => rw [hr] at h; exact ih l' h
        | err l' => rw [hr] at h; simp at h
        | ub => exact hz (round_ub hr).2
      · simp at h
  unfold runToTime at h
  rw [Option.map_eq_some_iff] at h
  obtain ⟨rl, h1, h2⟩ := h
  cases rl with
  | ok l => simp at h2
  | err l => simp at h2
  | ub => exact key _ _ h1

/-! ## C28 -/

theorem fromAccepted_append (p : V) (l1 l2 : List (Attempt V)) :
    FromAccepted p (l1 ++ l2) ↔ FromAccepted p l1 ∧ FromAccepted (lastAccepted p l1) l2 := by
  induction l1 generalizing p with
  | nil => simp [FromAccepted, lastAccepted]
  | cons a l ih =>
    simp only [List.cons_append, FromAccepted, ih, lastAccepted, List.foldl_cons]
    tauto

theorem lastAccepted_append (p : V) (l1 l2 : List (Attempt V)) :
    lastAccepted p (l1 ++ l2) = lastAccepted (lastAccepted p l1) l2 := by
  simp [lastAccepted]

theorem fromAccepted_failed {p : V} {l : List (Attempt V)} (hok : ∀ a ∈ l, a.ok = false)
    (hp : ∀ a ∈ l, a.prev = p ∧ a.guess = p) : FromAccepted p l ∧ lastAccepted p l = p := by
  induction l with
  | nil => simp [FromAccepted, lastAccepted]
  | cons a l ih =>
    have h1 := hok a (by simp)
    have h2 := hp a (by simp)
    have := ih (fun b hb => hok b (by simp [hb])) (fun b hb => hp b (by simp [hb]))
    simp only [FromAccepted, lastAccepted, List.foldl_cons, h1, Bool.false_eq_true, if_false]
    exact ⟨⟨h2.1, h2.2, this.1⟩, this.2⟩

/-- If the solution and the previous solution agree when the call starts, every solver call of it,
whatever failed before, starts from and measures change against the last accepted solution; when
the call returns, with or without error, the previous solution is the last accepted one. -/
theorem C28_failed_solves_are_undone {c : Cfg} {solver : Nat → V × Bool} {sync : ℝ} {s s' : Sim V}
    {r : Res (Sim V)} (h : Returns c solver sync s r) (hr : r = .ok s' ∨ r = .err s')
    (htr : s.trace = []) (hsoln : s.soln = s.solnPrev) :
    FromAccepted s.solnPrev (attempts s'.trace) ∧
    s'.solnPrev = lastAccepted s.solnPrev (attempts s'.trace) ∧
    (r = .ok s' → s'.soln = s'.solnPrev) := by
  obtain ⟨hok, herr⟩ := returns_invariant (c := c) (solver := solver) (sync := sync) (s := s)
    (I := fun l => 0 < l.left ∧ l.s.soln = l.s.solnPrev ∧
      FromAccepted s.solnPrev (attempts l.s.trace) ∧
      l.s.solnPrev = lastAccepted s.solnPrev (attempts l.s.trace))
    (E := fun l => FromAccepted s.solnPrev (attempts l.s.trace) ∧
      l.s.solnPrev = lastAccepted s.solnPrev (attempts l.s.trace))
    ⟨by norm_num, hsoln, by simp [htr, FromAccepted], by simp [htr, lastAccepted]⟩
    (by
      rintro l l' k new hlt ⟨i0, i1, i2, i3⟩ ho
      obtain ⟨a, ha1, -, ha2⟩ := ho.acc
      have hmem : ∀ b ∈ attempts new, b.prev = l.s.solnPrev ∧ b.guess = l.s.solnPrev :=
        fun b hb => ⟨(ho.tries b hb).2.2.1, (ho.tries b hb).2.2.2 i1⟩
      have hfail : FromAccepted l.s.solnPrev (failed new) ∧
          lastAccepted l.s.solnPrev (failed new) = l.s.solnPrev := by
        apply fromAccepted_failed
        · intro b hb; simpa using (List.mem_filter.1 hb).2
        · intro b hb; exact hmem b (List.mem_filter.1 hb).1
      have ha : a ∈ accepted new := by rw [ha1]; simp
      have haok : a.ok = true := by simpa using (List.mem_filter.1 ha).2
      have ham := hmem a (List.mem_filter.1 ha).1
      refine ⟨ho.leftPos, ho.prev.symm, ?_, ?_⟩
      · rw [ho.trace, attempts_append, fromAccepted_append, ← i3, ho.order, ha1,
          fromAccepted_append, hfail.2]
        exact ⟨i2, hfail.1, ham.1, ham.2, trivial⟩
      · rw [ho.trace, attempts_append, lastAccepted_append, ← i3, ho.order, ha1,
          lastAccepted_append, hfail.2, ← ha2]
        simp [lastAccepted, haok])
    (by
      rintro l l' hlt ⟨i0, i1, i2, i3⟩ hr
      obtain ⟨-, -, -, h4, new, e, -, hT, hacc, -⟩ := round_err i0 hr
      have hfail : FromAccepted l.s.solnPrev (attempts new) ∧
          lastAccepted l.s.solnPrev (attempts new) = l.s.solnPrev := by
        apply fromAccepted_failed
        · intro b hb
          by_contra hne
          have : b ∈ accepted new := List.mem_filter.2 ⟨hb, by simpa using hne⟩
          rw [hacc] at this; simp at this
        · intro b hb; exact ⟨(hT b hb).2.2.1, (hT b hb).2.2.2 i1⟩
      refine ⟨?_, ?_⟩
      · rw [e, attempts_append, fromAccepted_append, ← i3]; exact ⟨i2, hfail.1⟩
      · rw [e, attempts_append, lastAccepted_append, ← i3, hfail.2, h4])
    h
  rcases hr with e | e
  · obtain ⟨l, ⟨-, h1, h2, h3⟩, -, e'⟩ := hok s' e
    subst e'
    rw [finish_attempts, finish_prev, finish_soln]
    exact ⟨h2, h3, fun _ => h1⟩
  · obtain ⟨l, hl, e'⟩ := herr s' e
    subst e'
    exact ⟨hl.1, hl.2, fun h => by rw [e] at h; simp at h⟩

/-! ## C83 -/

/-- C83 fails: in the concrete run above one step is accepted, yet two outputs are written, the
first one, for step 0, because a solve failed. -/
theorem C83_output_after_failed_solve : ∃ s', Returns cfg0 failOnce 1 start0 (.ok s') ∧
    (accepted s'.trace).length = 1 ∧ outputs s'.trace = [0, 1] := by
  obtain ⟨s', h, -, h2, -, h3⟩ := concrete_run
  exact ⟨s', h, h3, h2⟩

/-- Partial C83: in a call without failed solves the outputs are those of the accepted steps whose
number is a multiple of the interval, each once, in order. -/
theorem C83_outputs_partial {c : Cfg} {solver : Nat → V × Bool} {sync : ℝ} {s s' : Sim V}
    (h : Returns c solver sync s (.ok s')) (htr : s.trace = []) (hnf : failed s'.trace = []) :
    outputs s'.trace = ((List.range (accepted s'.trace).length).map (fun i => s.ti.istep + 1 + i)).filter
        (fun n => decide (0 < c.outInterval ∧ n % c.outInterval = 0)) ∧
    s'.ti.istep = s.ti.istep + (accepted s'.trace).length := by
  obtain ⟨hok, -⟩ := returns_invariant (c := c) (solver := solver) (sync := sync) (s := s)
    (I := fun l => failed l.s.trace = [] →
      outputs l.s.trace = ((List.range (accepted l.s.trace).length).map
        (fun i => s.ti.istep + 1 + i)).filter
        (fun n => decide (0 < c.outInterval ∧ n % c.outInterval = 0)) ∧
      l.s.ti.istep = s.ti.istep + (accepted l.s.trace).length)
    (E := fun _ => True) (by intro _; simp [htr, accepted])
    (by
      rintro l l' k new hlt hI ho hf
      rw [ho.trace, failed_append] at hf
      obtain ⟨hf1, hf2⟩ := List.append_eq_nil_iff.1 hf
      obtain ⟨j1, j2⟩ := hI hf1
      have hk : k = 0 := by rw [← ho.failures, hf2]; rfl
      obtain ⟨a, ha1, -⟩ := ho.acc
      rw [ho.trace, outputs_append, accepted_append, ha1, List.length_append, List.length_singleton,
        List.range_succ, List.map_append, List.filter_append, ← j1, ho.outs hk]
      refine ⟨?_, ?_⟩
      · congr 1
        have e : l.s.ti.istep + 1 = s.ti.istep + 1 + (accepted l.s.trace).length := by omega
        rw [e, List.map_singleton, List.filter_singleton]
        by_cases hx : 0 < c.outInterval ∧
          (s.ti.istep + 1 + (accepted l.s.trace).length) % c.outInterval = 0
        · rw [if_pos hx]; simp [hx]
        · rw [if_neg hx]; simp [hx]
      · rw [ho.ti]
        change l.s.ti.istep + 1 = _
        omega)
    (fun _ _ _ _ _ => trivial) h
  obtain ⟨l, hl, -, e⟩ := hok s' rfl
  subst e
  simp only [finish_failed] at hnf
  simp only [finish_outputs, finish_accepted, finish_ti]
  exact hl hnf

/-! ## Non-vacuity: runs that meet the hypotheses above -/

/-- With a solver that never fails, and no checkpoints, a call returns successfully. -/
theorem all_succeed {c : Cfg} (hc : c.ckEnable = false) (hz : c.ckInterval ≠ 0)
    {solver : Nat → V × Bool}
    (hs : ∀ n, (solver n).2 = true) (sync : ℝ) (s : Sim V) (htr : s.trace = [])
    (hdt : 0 < s.ti.dt) (hg : 1 ≤ s.ti.growth) (hm : 0 < s.ti.dtMax) :
    ∃ s', Returns c solver sync s (.ok s') ∧ failed s'.trace = [] := by
  obtain ⟨r, h⟩ := C24_terminates c solver sync s hdt hg hm
  have hb := h
  obtain ⟨hok, herr⟩ := returns_invariant (c := c) (solver := solver) (sync := sync) (s := s)
    (I := fun l => 0 < l.left) (E := fun _ => False) (by norm_num)
    (fun l l' k new _ _ ho => ho.leftPos)
    (fun l l' _ h1 h2 => by
      obtain ⟨l2, h3, -⟩ := round_success (sync := sync) hc hs h1
      rw [h3] at h2; simp at h2) h
  cases r with
  | err s' => obtain ⟨l, hl, -⟩ := herr s' rfl; exact hl.elim
  | ub => exact absurd h (C27_defined hz)
  | ok s' =>
    refine ⟨s', h, ?_⟩
    obtain ⟨f, h⟩ := h
    have key : ∀ (f : Nat) (l l' : Loop V), 0 < l.left → failed l.s.trace = [] →
        loop c solver sync f l = some (.ok l') → failed l'.s.trace = [] := by
      intro f
      induction f with
      | zero => intro l l' _ _ h; simp [loop] at h
      | succ f ih =>
        intro l l' h1 h2 h
        rw [loop] at h
        split at h
        · obtain ⟨l2, h3, h4⟩ := round_success (sync := sync) hc hs h1
          rw [h3] at h
          refine ih l2 l' (by omega) ?_ h
          obtain ⟨k, new, ho⟩ := round_ok h3
          have : k = 0 := by have := ho.left; omega
          have hf := ho.failures
          rw [this, List.length_eq_zero_iff] at hf
          rw [ho.trace, failed_append, h2, hf]; rfl
        · simp only [Option.some.injEq, Res.ok.injEq] at h
          subst h; exact h2
    unfold runToTime at h
    rw [Option.map_eq_some_iff] at h
    obtain ⟨rl, h1, h2⟩ := h
    cases rl with
    | ok l =>
      simp only [Res.ok.injEq] at h2
      subst h2
      rw [finish_failed]
      exact key _ _ _ (by norm_num) (by simp [htr, failed]) h1
    | err l => simp at h2
    | ub => simp at h2

def cfg1 : Cfg := { canCut := true, ckEnable := false, ckInterval := 1, outInterval := 3 }

noncomputable def start1 (dt dtMax : ℝ) : Sim Nat :=
  { ti := { dtMax := dtMax, growth := 1.25, dt := dt, dtSave := 0, time := 0, istep := 0 }
    soln := 0, solnPrev := 0, dtime := 0, calls := 0, trace := [] }

/-- C22, C23, C25 (partial) and C83 (partial) apply to a run of many steps. -/
example : ∃ s', Returns cfg1 (fun n => (n, true)) 1000 (start1 1 10) (.ok s') ∧
    s'.ti.time = 1000 ∧ simulated s'.trace = 1000 ∧
    s'.ti.dt = min (1 * 1.25 ^ (accepted s'.trace).length) 10 ∧
    (∀ a ∈ attempts s'.trace, a.start + a.dtime ≤ 1000) := by
  obtain ⟨s', h, hf⟩ := all_succeed (c := cfg1) rfl (by decide) (solver := fun n => (n, true))
    (fun _ => rfl) 1000 (start1 1 10) rfl (by norm_num [start1]) (by norm_num [start1])
    (by norm_num [start1])
  have h22 := C22_never_overshoots h rfl (by norm_num [start1]) (by norm_num [start1])
    (by norm_num [start1]) (by norm_num [start1])
  have h23 := C23_step_sizes_partial h rfl hf (by norm_num [start1]) (by norm_num [start1])
    (by norm_num [start1]) rfl
  have h25 := C25_reported_time_partial h rfl rfl (by norm_num [start1]) (by norm_num [start1])
    (by norm_num [start1]) (by simp [hf])
  refine ⟨s', h, h22.2 s' rfl, ?_, h23.2.1, fun a ha => (h22.1 s' (Or.inl rfl) a ha).2.2⟩
  have := h25.1
  rw [h22.2 s' rfl] at this
  simpa [start1] using this.symm

/-- A step that was set, and the steps of an integrator without options. -/
example : ∃ s', Returns cfg1 (fun n => (n, true)) 1000 (setTimeStep (start1 1 10) 3) (.ok s') ∧
    ∃ a, (attempts s'.trace).head? = some a ∧ a.dtime = 3 := by
  obtain ⟨s', h, -⟩ := all_succeed (c := cfg1) rfl (by decide) (solver := fun n => (n, true))
    (fun _ => rfl) 1000 (setTimeStep (start1 1 10) 3) rfl (by norm_num [start1, setTimeStep])
    (by norm_num [start1, setTimeStep]) (by norm_num [start1, setTimeStep])
  obtain ⟨a, h1, -, h2⟩ := C23_step_that_was_set h rfl (by norm_num [start1])
  exact ⟨s', h, a, h1, by rw [h2]; norm_num [start1]⟩

example : ∃ s', Returns cfg1 (fun n => (n, true)) 1000 { start1 1 10 with ti := Ti.default } (.ok s') ∧
    failed s'.trace = [] := by
  exact all_succeed (c := cfg1) rfl (by decide) (solver := fun n => (n, true))
    (fun _ => rfl) 1000 { start1 1 10 with ti := Ti.default } rfl (by norm_num [Ti.default])
    (by norm_num [Ti.default]) (by norm_num [Ti.default])

/-- A first step above the maximum. -/
example : ∃ s', Returns cfg1 (fun n => (n, true)) 1000 (start1 20 10) (.ok s') ∧
    ∃ a ∈ attempts s'.trace, 10 < a.dtime := by
  obtain ⟨s', h, -⟩ := all_succeed (c := cfg1) rfl (by decide) (solver := fun n => (n, true))
    (fun _ => rfl) 1000 (start1 20 10) rfl (by norm_num [start1]) (by norm_num [start1])
    (by norm_num [start1])
  exact ⟨s', h, C23_initial_step_unchecked h (by norm_num [start1]) (by norm_num [start1])
    (by norm_num [start1])⟩

/-- A solver that never succeeds. -/
theorem inner_all_fail {c : Cfg} (hc : c.canCut = true) {solver : Nat → V × Bool}
    (hs : ∀ n, (solver n).2 = false) : ∀ (r : Nat) (s : Sim V), 0 < r →
      ∃ s', inner c solver r s = .err (s', 0) := by
  intro r
  induction r with
  | zero => intro s h; omega
  | succ r ih =>
    intro s _
    rw [inner]
    simp only [hs, Bool.false_eq_true, if_false, hc, if_true]
    split
    · exact ⟨_, rfl⟩
    · exact ih _ (by omega)

theorem all_fail {c : Cfg} (hc : c.canCut = true) {solver : Nat → V × Bool}
    (hs : ∀ n, (solver n).2 = false) {sync : ℝ} {s : Sim V} (ht : s.ti.time < sync) :
    ∃ s', Returns c solver sync s (.err s') := by
  obtain ⟨s', h⟩ := inner_all_fail hc hs 25 (startStep sync s) (by norm_num)
  refine ⟨s', 1, ?_⟩
  simp only [runToTime, loop, if_pos ht, round, h, Option.map_some]

theorem inner_err_ti {c : Cfg} {solver : Nat → V × Bool} : ∀ (r : Nat) (s s' : Sim V) (r' : Nat),
    inner c solver r s = .err (s', r') →
    ∃ k, s'.ti = { s.ti with dt := s.ti.dt * 0.25 ^ k } := by
  intro r
  induction r with
  | zero =>
    intro s s' r' h
    simp only [inner, Res.err.injEq, Prod.mk.injEq] at h
    exact ⟨0, by rw [← h.1]; simp⟩
  | succ r ih =>
    intro s s' r' h
    rw [inner] at h
    split at h
    · simp at h
    · split at h
      · split at h
        · simp only [Res.err.injEq, Prod.mk.injEq] at h
          exact ⟨1, by rw [← h.1]; simp [restore, cutStep, solve]⟩
        · obtain ⟨k, hk⟩ := ih _ _ _ h
          refine ⟨k+1, ?_⟩
          rw [hk]
          simp [restore, cutStep, solve, pow_succ']
          ring
      · simp only [Res.err.injEq, Prod.mk.injEq] at h
        exact ⟨1, by rw [← h.1]; simp [cutStep, solve]⟩

theorem round_err_ti {c : Cfg} {solver : Nat → V × Bool} {sync : ℝ} {l l' : Loop V}
    (h : round c solver sync l = .err l') :
    ∃ k, l'.s.ti = { setTargetTime l.s.ti sync with
      dt := (setTargetTime l.s.ti sync).dt * 0.25 ^ k } := by
  unfold round at h
  split at h
  · rename_i hi
    simp only [Res.err.injEq] at h
    subst h
    exact inner_err_ti _ _ _ _ hi
  · simp at h
  · split at h <;> simp at h

/-- After a failed run, a run to time 1000 reports 1000 after less than that. -/
example : ∃ s1 s2, Returns cfg1 (fun n => (n, false)) 1 (start1 2 10) (.err s1) ∧
    (failed s1.trace).length = 25 ∧
    Returns cfg1 (fun n => (n, true)) 1000 { s1 with trace := [] } (.ok s2) ∧
    s2.ti.time = 1000 ∧ s1.ti.time + simulated s2.trace < 1000 := by
  obtain ⟨s1, h1⟩ := all_fail (c := cfg1) rfl (solver := fun n => (n, false)) (fun _ => rfl)
    (sync := 1) (s := start1 2 10) (by norm_num [start1])
  have h25 := (C24_at_most_25_failures h1 rfl).2 s1 rfl
  obtain ⟨-, herr⟩ := returns_invariant (c := cfg1) (solver := fun n => (n, false)) (sync := 1)
    (s := start1 2 10)
    (I := fun l => l = { s := start1 2 10, left := 25, flag := false } ∨ l.s.ti.time = 1)
    (E := fun l => l.s.ti.time = 0 ∧ l.s.ti.growth = 1.25 ∧ l.s.ti.dtMax = 10 ∧
      0 < l.s.ti.dt ∧ l.s.ti.dt ≤ 1) (Or.inl rfl)
    (by
      rintro l l' k new hlt (e | e) ho
      · subst e; right; rw [ho.ti]; norm_num [updateDT, setTargetTime, start1]
      · linarith)
    (by
      rintro l l' hlt (e | e) hr
      · subst e
        obtain ⟨k, e1⟩ := round_err_ti hr
        have hq := quarter_pow k
        have e2 : (setTargetTime (start1 2 10).ti 1).dt = 1 := by
          norm_num [setTargetTime, start1]
        rw [e1]
        refine ⟨rfl, rfl, rfl, ?_, ?_⟩ <;> simp only [e2, one_mul]
        · exact hq.1
        · exact hq.2
      · linarith) h1
  obtain ⟨l, hl, e⟩ := herr s1 rfl
  obtain ⟨s2, h2, -⟩ := all_succeed (c := cfg1) rfl (by decide) (solver := fun n => (n, true))
    (fun _ => rfl) 1000 { s1 with trace := [] } rfl (by rw [e]; exact hl.2.2.2.1)
    (by simp only [e, hl.2.1]; norm_num) (by simp only [e, hl.2.2.1]; norm_num)
  refine ⟨s1, s2, h1, h25.2 rfl, h2, ?_⟩
  exact C25_time_skipped_after_error h1 (by norm_num [start1]) (by norm_num [start1]) h2
    (by rw [e]; exact hl.2.2.2.1) (by rw [e]; linarith [hl.1, hl.2.2.2.2])

/-- C27 and C28 apply to the concrete run with one failure. -/
example : ∃ s', Returns cfg0 failOnce 1 start0 (.ok s') ∧
    (checkpoints s'.trace).getLast? = some s'.solnPrev ∧
    FromAccepted 0 (attempts s'.trace) ∧ s'.solnPrev = 2 := by
  obtain ⟨s', h, hf, h2, h3, h4⟩ := concrete_run
  have h27 := C27_last_solution_on_disk h rfl rfl (by intro h; rw [h] at h4; simp at h4)
  have h28 := C28_failed_solves_are_undone h (Or.inl rfl) rfl rfl
  refine ⟨s', h, h27.1.trans h27.2, h28.1, ?_⟩
  have := h27.1.trans h27.2
  rw [h3] at this
  simpa using this.symm

/-- C27's zero interval is reached. -/
example : Returns { cfg0 with ckInterval := 0 } (fun n => (n, true)) 1 start0 .ub :=
  C27_zero_interval_undefined rfl rfl (by norm_num [start0]) rfl

end TDy.Time.Props
