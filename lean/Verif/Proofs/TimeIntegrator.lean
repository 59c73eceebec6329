import Verif.Model.TimeIntegrator
import Mathlib.Algebra.Order.Archimedean.Basic
import Mathlib.Tactic.NormNum
import Mathlib.Tactic.Linarith
import Mathlib.Tactic.Ring
import Mathlib.Tactic.Positivity

/-! # Helper lemmas for the time integrator (C22-C28) -/

namespace TDy.Time.Proofs

open TDy.Time TDy.Time.Spec

variable {V : Type}

section observe
variable (a b : List (Ev V))

@[simp] theorem attempts_append : attempts (a ++ b) = attempts a ++ attempts b :=
  List.filterMap_append ..
@[simp] theorem attempts_attempt (x : Attempt V) : attempts [Ev.attempt x] = [x] := rfl
@[simp] theorem attempts_output (t : ℝ) (i : Nat) (v : V) : attempts [Ev.output t i v] = [] := rfl
@[simp] theorem attempts_checkpoint (t : ℝ) (i : Nat) (v : V) :
    attempts [Ev.checkpoint t i v] = [] := rfl
@[simp] theorem checkpoints_append : checkpoints (a ++ b) = checkpoints a ++ checkpoints b :=
  List.filterMap_append ..
@[simp] theorem checkpoints_attempt (x : Attempt V) : checkpoints [Ev.attempt x] = [] := rfl
@[simp] theorem checkpoints_output (t : ℝ) (i : Nat) (v : V) :
    checkpoints [Ev.output t i v] = [] := rfl
@[simp] theorem checkpoints_checkpoint (t : ℝ) (i : Nat) (v : V) :
    checkpoints [Ev.checkpoint t i v] = [v] := rfl
@[simp] theorem outputs_append : outputs (a ++ b) = outputs a ++ outputs b :=
  List.filterMap_append ..
@[simp] theorem outputs_attempt (x : Attempt V) : outputs [Ev.attempt x] = [] := rfl
@[simp] theorem outputs_output (t : ℝ) (i : Nat) (v : V) : outputs [Ev.output t i v] = [i] := rfl
@[simp] theorem outputs_checkpoint (t : ℝ) (i : Nat) (v : V) :
    outputs [Ev.checkpoint t i v] = [] := rfl
@[simp] theorem accepted_append : accepted (a ++ b) = accepted a ++ accepted b := by
  simp [accepted]
@[simp] theorem failed_append : failed (a ++ b) = failed a ++ failed b := by
  simp [failed]
@[simp] theorem simulated_append : simulated (a ++ b) = simulated a + simulated b := by
  simp [simulated]
@[simp] theorem attempts_nil : attempts ([] : List (Ev V)) = [] := rfl
@[simp] theorem checkpoints_nil : checkpoints ([] : List (Ev V)) = [] := rfl
@[simp] theorem outputs_nil : outputs ([] : List (Ev V)) = [] := rfl
@[simp] theorem attempts_cons (x : Attempt V) : attempts (Ev.attempt x :: b) = x :: attempts b :=
  rfl
@[simp] theorem checkpoints_cons (x : Attempt V) :
    checkpoints (Ev.attempt x :: b) = checkpoints b := rfl
@[simp] theorem outputs_cons (x : Attempt V) : outputs (Ev.attempt x :: b) = outputs b := rfl
end observe

/-! ## the fields `maybeOutput` leaves alone -/

section out
variable (c : Cfg) (s : Sim V)

@[simp] theorem out_ti : (maybeOutput c s).ti = s.ti := by unfold maybeOutput; split <;> rfl
@[simp] theorem out_soln : (maybeOutput c s).soln = s.soln := by unfold maybeOutput; split <;> rfl
@[simp] theorem out_prev : (maybeOutput c s).solnPrev = s.solnPrev := by
  unfold maybeOutput; split <;> rfl
@[simp] theorem out_dtime : (maybeOutput c s).dtime = s.dtime := by
  unfold maybeOutput; split <;> rfl
@[simp] theorem out_calls : (maybeOutput c s).calls = s.calls := by
  unfold maybeOutput; split <;> rfl

/-- What `maybeOutput` appends to the trace. -/
theorem out_trace : ∃ new : List (Ev V), (maybeOutput c s).trace = s.trace ++ new ∧
    attempts new = [] ∧ checkpoints new = [] ∧
    outputs new = if 0 < c.outInterval ∧ s.ti.istep % c.outInterval = 0 then [s.ti.istep]
      else [] := by
  unfold maybeOutput
  by_cases h : c.outInterval > 0 ∧ s.ti.istep % c.outInterval = 0
  · rw [if_pos h]
    refine ⟨[.output s.ti.time s.ti.istep s.solnPrev], rfl, rfl, rfl, ?_⟩
    rw [if_pos h]; rfl
  · rw [if_neg h]
    refine ⟨[], by simp, rfl, rfl, ?_⟩
    rw [if_neg h]; rfl
end out

/-- Facts about the solver calls one round of the outer loop makes: all start at time `t`, use a
step obtained from `dt` by cuts, see `prev` as previous solution and, if the guess was `prev` at
first, always start from `prev`. -/
def Tries (t dt : ℝ) (soln prev : V) (l : List (Attempt V)) : Prop :=
  ∀ a ∈ l, a.start = t ∧ (∃ k, a.dtime = dt * 0.25 ^ k) ∧ a.prev = prev ∧
    (soln = prev → a.guess = prev)

theorem tries_cons {t dt : ℝ} {soln prev : V} {a : Attempt V} {l : List (Attempt V)}
    (ha : a.start = t ∧ a.dtime = dt ∧ a.prev = prev ∧ a.guess = soln)
    (hl : Tries t (dt * 0.25) prev prev l) : Tries t dt soln prev (a :: l) := by
  intro b hb
  rcases List.mem_cons.1 hb with h | h
  · subst h
    exact ⟨ha.1, ⟨0, by rw [ha.2.1]; simp⟩, ha.2.2.1, fun e => by rw [ha.2.2.2, e]⟩
  · obtain ⟨h1, ⟨k, hk⟩, h3, h4⟩ := hl b h
    exact ⟨h1, ⟨k + 1, by rw [hk, pow_succ]; ring⟩, h3, fun _ => h4 rfl⟩

/-- A round that succeeds. -/
theorem inner_ok (c : Cfg) (solver : Nat → V × Bool) : ∀ (r : Nat) (s s' : Sim V) (r' : Nat),
    s.dtime = s.ti.dt → inner c solver r s = .ok (s', r') →
    r' ≤ r ∧ 0 < r' ∧
    s'.ti = { s.ti with
      dt := s.ti.dt * 0.25 ^ (r - r')
      time := s.ti.time + s.ti.dt * 0.25 ^ (r - r')
      istep := s.ti.istep + 1 } ∧
    s'.solnPrev = s'.soln ∧
    ∃ new, s'.trace = s.trace ++ new ∧ checkpoints new = [] ∧
      Tries s.ti.time s.ti.dt s.soln s.solnPrev (attempts new) ∧
      (failed new).length = r - r' ∧
      (r' < r → ∃ a, (failed new).head? = some a ∧ a.start = s.ti.time ∧ a.dtime = s.ti.dt) ∧
      (∃ a, accepted new = [a] ∧ a.dtime = s.ti.dt * 0.25 ^ (r - r') ∧ a.result = s'.solnPrev) ∧
      attempts new = failed new ++ accepted new ∧
      (r' = r → outputs new =
        if 0 < c.outInterval ∧ (s.ti.istep + 1) % c.outInterval = 0 then [s.ti.istep + 1]
        else []) := by
  intro r
  induction r with
  | zero => intro s s' r' _ h; simp [inner] at h
  | succ r ih =>
    intro s s' r' hd h
    rw [inner] at h
    by_cases hok : (solver s.calls).2 = true
    · rw [if_pos hok] at h
      simp only [Res.ok.injEq, Prod.mk.injEq] at h
      obtain ⟨h1, h2⟩ := h
      subst h1 h2
      obtain ⟨new, e, n1, n2, n3⟩ := out_trace c (accept (solve solver s))
      refine ⟨le_refl _, Nat.succ_pos _, ?_, ?_, ?_⟩
      · simp [accept, solve]
      · simp [accept, solve]
      · refine ⟨[.attempt ⟨s.ti.time, s.dtime, s.soln, s.solnPrev, (solver s.calls).1,
          (solver s.calls).2⟩] ++ new, ?_, ?_, ?_, ?_, ?_, ?_, ?_, ?_⟩
        · rw [e]; simp [accept, solve]
        · simp [n2]
        · simp only [attempts_append, n1, List.append_nil, attempts_attempt]
          apply tries_cons
          · exact ⟨rfl, hd, rfl, rfl⟩
          · intro a ha; simp at ha
        · simp [failed, n1, hok]
        · intro h; omega
        · refine ⟨⟨s.ti.time, s.dtime, s.soln, s.solnPrev, (solver s.calls).1,
            (solver s.calls).2⟩, ?_, ?_, ?_⟩
          · simp [accepted, n1, hok]
          · simp [hd]
          · simp [accept, solve]
        · simp [failed, accepted, n1, hok]
        · intro _
          rw [outputs_append, n3, outputs_attempt, List.nil_append]
          rfl
    · rw [if_neg hok] at h
      have hok' : (solver s.calls).2 = false := by simpa using hok
      by_cases hc : c.canCut = true
      · rw [if_pos hc] at h
        by_cases hr : r = 0
        · rw [if_pos hr] at h; simp at h
        · rw [if_neg hr] at h
          obtain ⟨new, e, n1, n2, -⟩ := out_trace c (restore (cutStep (solve solver s)))
          obtain ⟨i1, i2, i3, i4, new', j1, j2, j3, j4, j5, j6, j7, -⟩ := ih _ s' r' (by
            simp [restore, cutStep, solve]) h
          have e1 : (maybeOutput c (restore (cutStep (solve solver s)))).ti =
            { s.ti with dt := s.ti.dt * 0.25 } := by simp [restore, cutStep, solve]
          have e2 : (maybeOutput c (restore (cutStep (solve solver s)))).soln = s.solnPrev := by
            simp [restore, cutStep, solve]
          have e3 : (maybeOutput c (restore (cutStep (solve solver s)))).solnPrev =
            s.solnPrev := by simp [restore, cutStep, solve]
          rw [e1] at i3 j3 j5 j6
          rw [e2, e3] at j3
          have hp : s.ti.dt * 0.25 * 0.25 ^ (r - r') = s.ti.dt * 0.25 ^ (r + 1 - r') := by
            rw [show r + 1 - r' = (r - r') + 1 by omega, pow_succ]; ring
          simp only [hp] at i3 j6
          refine ⟨by omega, i2, i3, i4, ?_⟩
          refine ⟨[.attempt ⟨s.ti.time, s.dtime, s.soln, s.solnPrev, (solver s.calls).1,
            (solver s.calls).2⟩] ++ new ++ new', ?_, ?_, ?_, ?_, ?_, ?_, ?_, ?_⟩
          · rw [j1, e]; simp [restore, cutStep, solve]
          · simp [n2, j2]
          · simp only [attempts_append, n1, attempts_attempt, List.append_nil]
            apply tries_cons
            · exact ⟨rfl, hd, rfl, rfl⟩
            · exact j3
          · have : failed new = [] := by simp [failed, n1]
            simp only [failed_append, List.length_append, j4, this]
            simp [failed, hok']; omega
          · intro _
            refine ⟨⟨s.ti.time, s.dtime, s.soln, s.solnPrev, (solver s.calls).1,
              (solver s.calls).2⟩, ?_, rfl, hd⟩
            simp [failed, hok']
          · obtain ⟨a, ha⟩ := j6
            refine ⟨a, ?_, ha.2.1, ha.2.2⟩
            have : accepted new = [] := by simp [accepted, n1]
            simp only [accepted_append, this, ha.1]
            simp [accepted, hok']
          · have hf : failed new = [] := by simp [failed, n1]
            have ha : accepted new = [] := by simp [accepted, n1]
            simp only [attempts_append, n1, failed_append, accepted_append, hf, ha, j7]
            simp [failed, accepted, hok']
          · intro h; omega
      · rw [if_neg hc] at h; simp at h

/-- A round that ends in an error. -/
theorem inner_err (c : Cfg) (solver : Nat → V × Bool) : ∀ (r : Nat) (s s' : Sim V) (r' : Nat),
    0 < r → s.dtime = s.ti.dt → inner c solver r s = .err (s', r') →
    s'.ti.time = s.ti.time ∧ s'.ti.istep = s.ti.istep ∧ s'.ti.dtSave = s.ti.dtSave ∧
    s'.solnPrev = s.solnPrev ∧
    ∃ new, s'.trace = s.trace ++ new ∧ checkpoints new = [] ∧
      Tries s.ti.time s.ti.dt s.soln s.solnPrev (attempts new) ∧
      accepted new = [] ∧ 1 ≤ (failed new).length ∧ (failed new).length ≤ r ∧
      (c.canCut = true → (failed new).length = r) ∧
      (c.canCut = false → (failed new).length = 1) := by
  intro r
  induction r with
  | zero => intro s s' r' h; omega
  | succ r ih =>
    intro s s' r' _ hd h
    rw [inner] at h
    by_cases hok : (solver s.calls).2 = true
    · rw [if_pos hok] at h; simp at h
    · rw [if_neg hok] at h
      have hok' : (solver s.calls).2 = false := by simpa using hok
      by_cases hc : c.canCut = true
      · rw [if_pos hc] at h
        by_cases hr : r = 0
        · rw [if_pos hr] at h
          simp only [Res.err.injEq, Prod.mk.injEq] at h
          obtain ⟨h1, h2⟩ := h
          subst h1 h2
          refine ⟨rfl, rfl, rfl, rfl, _, rfl, rfl, ?_, ?_, ?_, ?_, ?_, ?_⟩
          · rw [attempts_attempt]
            apply tries_cons
            · exact ⟨rfl, hd, rfl, rfl⟩
            · intro a ha; simp at ha
          · simp [accepted, hok']
          · simp [failed, hok']
          · simp [failed, hok']
          · intro _; simp [failed, hok', hr]
          · intro h; rw [hc] at h; simp at h
        · rw [if_neg hr] at h
          obtain ⟨new, e, n1, n2, -⟩ := out_trace c (restore (cutStep (solve solver s)))
          obtain ⟨i1, i2, i3, i4, new', j1, j2, j3, j4, j5, j6, j7, -⟩ := ih _ s' r' (by omega) (by
            simp [restore, cutStep, solve]) h
          have e1 : (maybeOutput c (restore (cutStep (solve solver s)))).ti =
            { s.ti with dt := s.ti.dt * 0.25 } := by simp [restore, cutStep, solve]
          have e2 : (maybeOutput c (restore (cutStep (solve solver s)))).soln = s.solnPrev := by
            simp [restore, cutStep, solve]
          have e3 : (maybeOutput c (restore (cutStep (solve solver s)))).solnPrev =
            s.solnPrev := by simp [restore, cutStep, solve]
          rw [e1] at i1 i2 i3 j3
          rw [e2, e3] at j3
          rw [e3] at i4
          have hf : failed new = [] := by simp [failed, n1]
          have ha : accepted new = [] := by simp [accepted, n1]
          refine ⟨i1, i2, i3, i4, [.attempt ⟨s.ti.time, s.dtime, s.soln, s.solnPrev,
            (solver s.calls).1, (solver s.calls).2⟩] ++ new ++ new', ?_, ?_, ?_, ?_, ?_, ?_, ?_, ?_⟩
          · rw [j1, e]; simp [restore, cutStep, solve]
          · simp [n2, j2]
          · simp only [attempts_append, n1, attempts_attempt, List.append_nil]
            apply tries_cons
            · exact ⟨rfl, hd, rfl, rfl⟩
            · exact j3
          · simp only [accepted_append, ha, j4]
            simp [accepted, hok']
          · simp only [failed_append, List.length_append]; omega
          · simp only [failed_append, List.length_append, hf]
            simp [failed, hok']
            rw [failed] at j6; omega
          · intro h
            have := j7 h
            simp only [failed_append, List.length_append, hf, this]
            simp [failed, hok']; omega
          · intro h; rw [hc] at h; simp at h
      · rw [if_neg hc] at h
        simp only [Res.err.injEq, Prod.mk.injEq] at h
        obtain ⟨h1, h2⟩ := h
        subst h1
        refine ⟨rfl, rfl, rfl, rfl, _, rfl, rfl, ?_, ?_, ?_, ?_, ?_, ?_⟩
        · rw [attempts_attempt]
          apply tries_cons
          · exact ⟨rfl, hd, rfl, rfl⟩
          · intro a ha; simp at ha
        · simp [accepted, hok']
        · simp [failed, hok']
        · simp [failed, hok']
        · intro h; exact absurd h hc
        · intro _; simp [failed, hok']

theorem inner_not_ub (c : Cfg) (solver : Nat → V × Bool) : ∀ (r : Nat) (s : Sim V),
    inner c solver r s ≠ .ub := by
  intro r
  induction r with
  | zero => intro s; simp [inner]
  | succ r ih =>
    intro s
    rw [inner]
    split
    · simp
    · split
      · split
        · simp
        · exact ih _
      · simp

/-! ## The outer loop -/

/-- Invariant rule for the outer loop. -/
theorem loop_invariant (c : Cfg) (solver : Nat → V × Bool) (sync : ℝ) (I : Loop V → Prop)
    (E : Loop V → Prop)
    (hs : ∀ l l', l.s.ti.time < sync → I l → round c solver sync l = .ok l' → I l')
    (he : ∀ l l', l.s.ti.time < sync → I l → round c solver sync l = .err l' → E l') :
    ∀ (f : Nat) (l : Loop V) (r : Res (Loop V)), I l → loop c solver sync f l = some r →
      (∀ l', r = .ok l' → I l' ∧ sync ≤ l'.s.ti.time) ∧ (∀ l', r = .err l' → E l') := by
  intro f
  induction f with
  | zero => intro l r _ h; simp [loop] at h
  | succ f ih =>
    intro l r hI h
    rw [loop] at h
    by_cases ht : l.s.ti.time < sync
    · rw [if_pos ht] at h
      cases hr : round c solver sync l with
      | ok l' =>
        rw [hr] at h
        exact ih l' r (hs l l' ht hI hr) h
      | err l' =>
        rw [hr] at h
        simp only [Option.some.injEq] at h
        subst h
        refine ⟨by intro l'' h; simp at h, ?_⟩
        intro l'' h
        simp only [Res.err.injEq] at h
        subst h
        exact he l l' ht hI hr
      | ub =>
        rw [hr] at h
        simp only [Option.some.injEq] at h
        subst h
        exact ⟨by intro l'' h; simp at h, by intro l'' h; simp at h⟩
    · rw [if_neg ht] at h
      simp only [Option.some.injEq] at h
      subst h
      refine ⟨?_, by intro l'' h; simp at h⟩
      intro l'' h
      simp only [Res.ok.injEq] at h
      subst h
      exact ⟨hI, not_lt.1 ht⟩

/-- What `maybeCheckpoint` does. -/
theorem ck_spec {c : Cfg} {s s' : Sim V} {flag flag' : Bool}
    (h : maybeCheckpoint c s flag = some (s', flag')) :
    s'.ti = s.ti ∧ s'.soln = s.soln ∧ s'.solnPrev = s.solnPrev ∧ s'.dtime = s.dtime ∧
      ∃ new, s'.trace = s.trace ++ new ∧ attempts new = [] ∧ outputs new = [] ∧
        (c.ckEnable = true → (flag' = false ∧ checkpoints new = [s.solnPrev]) ∨
          (flag' = true ∧ checkpoints new = [])) ∧
        (c.ckEnable = false → checkpoints new = [] ∧ flag' = flag) := by
  unfold maybeCheckpoint at h
  by_cases he : c.ckEnable = true
  · rw [if_pos he] at h
    by_cases hz : c.ckInterval = 0
    · rw [if_pos hz] at h; simp at h
    · rw [if_neg hz] at h
      by_cases hm : s.ti.istep % c.ckInterval = 0
      · rw [if_pos hm] at h
        simp only [Option.some.injEq, Prod.mk.injEq] at h
        obtain ⟨h1, h2⟩ := h
        subst h1 h2
        refine ⟨rfl, rfl, rfl, rfl, _, rfl, rfl, rfl, fun _ => Or.inl ⟨rfl, rfl⟩, ?_⟩
        intro h; rw [he] at h; simp at h
      · rw [if_neg hm] at h
        simp only [Option.some.injEq, Prod.mk.injEq] at h
        obtain ⟨h1, h2⟩ := h
        subst h1 h2
        refine ⟨rfl, rfl, rfl, rfl, [], by simp, rfl, rfl, fun _ => Or.inr ⟨rfl, rfl⟩, ?_⟩
        intro h; rw [he] at h; simp at h
  · rw [if_neg he] at h
    simp only [Option.some.injEq, Prod.mk.injEq] at h
    obtain ⟨h1, h2⟩ := h
    subst h1 h2
    exact ⟨rfl, rfl, rfl, rfl, [], by simp, rfl, rfl, fun h => absurd h he, fun _ => ⟨rfl, rfl⟩⟩

/-- One successful round, in terms of the number `k` of cuts. -/
structure RoundOk (c : Cfg) (sync : ℝ) (l l' : Loop V) (k : Nat) (new : List (Ev V)) : Prop where
  left : l'.left + k = l.left
  leftPos : 0 < l'.left
  ti : l'.s.ti = updateDT { (setTargetTime l.s.ti sync) with
      dt := (setTargetTime l.s.ti sync).dt * 0.25 ^ k
      time := l.s.ti.time + (setTargetTime l.s.ti sync).dt * 0.25 ^ k
      istep := l.s.ti.istep + 1 } sync
  prev : l'.s.solnPrev = l'.s.soln
  trace : l'.s.trace = l.s.trace ++ new
  tries : Tries l.s.ti.time (setTargetTime l.s.ti sync).dt l.s.soln l.s.solnPrev (attempts new)
  failures : (failed new).length = k
  firstFailed : 0 < k → ∃ a ∈ failed new, a.start = l.s.ti.time ∧
    a.dtime = (setTargetTime l.s.ti sync).dt
  headFailed : 0 < k → ∃ a, (failed new).head? = some a ∧ a.start = l.s.ti.time ∧
    a.dtime = (setTargetTime l.s.ti sync).dt
  acc : ∃ a, accepted new = [a] ∧ a.dtime = (setTargetTime l.s.ti sync).dt * 0.25 ^ k ∧
    a.result = l'.s.solnPrev
  order : attempts new = failed new ++ accepted new
  outs : k = 0 → outputs new =
    if 0 < c.outInterval ∧ (l.s.ti.istep + 1) % c.outInterval = 0 then [l.s.ti.istep + 1] else []
  ck : c.ckEnable = true → (l'.flag = false ∧ checkpoints new = [l'.s.solnPrev]) ∨
    (l'.flag = true ∧ checkpoints new = [])
  nock : c.ckEnable = false → checkpoints new = [] ∧ l'.flag = l.flag

theorem round_ok {c : Cfg} {solver : Nat → V × Bool} {sync : ℝ} {l l' : Loop V}
    (h : round c solver sync l = .ok l') : ∃ k new, RoundOk c sync l l' k new := by
  unfold round at h
  cases hi : inner c solver l.left (startStep sync l.s) with
  | ub => exact absurd hi (inner_not_ub _ _ _ _)
  | err x => rw [hi] at h; simp at h
  | ok x =>
    obtain ⟨s, left⟩ := x
    rw [hi] at h
    simp only at h
    obtain ⟨a1, a2, a3, a4, new, b1, b2, b3, b4, b5, b6, b6', b7⟩ :=
      inner_ok c solver _ _ s left rfl hi
    cases hm : maybeCheckpoint c s l.flag with
    | none => rw [hm] at h; simp at h
    | some y =>
      obtain ⟨s2, flag⟩ := y
      rw [hm] at h
      simp only [Res.ok.injEq] at h
      subst h
      obtain ⟨c1, c2, c3, c4, new2, d1, d2, d3, d4, d5⟩ := ck_spec hm
      refine ⟨l.left - left, new ++ new2, ?_⟩
      have hacc : accepted new2 = [] := by simp [accepted, d2]
      have hfail : failed new2 = [] := by simp [failed, d2]
      constructor
      · simp only; omega
      · exact a2
      · simp only [c1, a3]; rfl
      · simp only [c2, c3, a4]
      · simp only [d1, b1, startStep, List.append_assoc]
      · rw [attempts_append, d2, List.append_nil]; exact b3
      · rw [failed_append, hfail, List.append_nil]; exact b4
      · intro hk
        rw [failed_append, hfail, List.append_nil]
        obtain ⟨a, ha, hb⟩ := b5 (by omega)
        exact ⟨a, List.mem_of_mem_head? ha, hb⟩
      · intro hk
        rw [failed_append, hfail, List.append_nil]
        exact b5 (by omega)
      · rw [accepted_append, hacc, List.append_nil]
        simp only [c3]
        exact b6
      · rw [attempts_append, failed_append, accepted_append, hfail, hacc, d2]
        simpa using b6'
      · intro hk
        rw [outputs_append, d3, List.append_nil]
        exact b7 (by omega)
      · intro he
        rw [checkpoints_append, b2, List.nil_append]
        simp only [c3]
        exact d4 he
      · intro he
        rw [checkpoints_append, b2, List.nil_append]
        exact d5 he

/-- One failing round. -/
theorem round_err {c : Cfg} {solver : Nat → V × Bool} {sync : ℝ} {l l' : Loop V}
    (hl : 0 < l.left) (h : round c solver sync l = .err l') :
    l'.s.ti.time = l.s.ti.time ∧ l'.s.ti.istep = l.s.ti.istep ∧
    l'.s.ti.dtSave = (setTargetTime l.s.ti sync).dtSave ∧
    l'.s.solnPrev = l.s.solnPrev ∧
    ∃ new, l'.s.trace = l.s.trace ++ new ∧ checkpoints new = [] ∧
      Tries l.s.ti.time (setTargetTime l.s.ti sync).dt l.s.soln l.s.solnPrev (attempts new) ∧
      accepted new = [] ∧ 1 ≤ (failed new).length ∧ (failed new).length ≤ l.left ∧
      (c.canCut = true → (failed new).length = l.left) ∧
      (c.canCut = false → (failed new).length = 1) := by
  unfold round at h
  cases hi : inner c solver l.left (startStep sync l.s) with
  | ub => exact absurd hi (inner_not_ub _ _ _ _)
  | err x =>
    obtain ⟨s, left⟩ := x
    rw [hi] at h
    simp only [Res.err.injEq] at h
    subst h
    exact inner_err c solver _ _ s left hl rfl hi
  | ok x =>
    obtain ⟨s, left⟩ := x
    rw [hi] at h
    simp only at h
    cases hm : maybeCheckpoint c s l.flag with
    | none => rw [hm] at h; simp at h
    | some y => rw [hm] at h; simp at h

theorem round_ub {c : Cfg} {solver : Nat → V × Bool} {sync : ℝ} {l : Loop V}
    (h : round c solver sync l = .ub) : c.ckEnable = true ∧ c.ckInterval = 0 := by
  unfold round at h
  cases hi : inner c solver l.left (startStep sync l.s) with
  | ub => exact absurd hi (inner_not_ub _ _ _ _)
  | err x => obtain ⟨s, left⟩ := x; rw [hi] at h; simp at h
  | ok x =>
    obtain ⟨s, left⟩ := x
    rw [hi] at h
    simp only at h
    cases hm : maybeCheckpoint c s l.flag with
    | some y => rw [hm] at h; simp at h
    | none =>
      unfold maybeCheckpoint at hm
      split at hm
      · rename_i he
        split at hm
        · rename_i hz; exact ⟨he, hz⟩
        · split at hm <;> simp at hm
      · simp at hm

/-! ## Step lengths -/

theorem setTarget_dt_le (ti : Ti) (sync : ℝ) :
    (setTargetTime ti sync).dt ≤ ti.dt ∧ (setTargetTime ti sync).dt ≤ sync - ti.time := by
  simp only [setTargetTime]
  split
  · rename_i h; exact ⟨h.le, le_refl _⟩
  · rename_i h; exact ⟨le_refl _, not_lt.1 h⟩

theorem setTarget_dt_pos {ti : Ti} {sync : ℝ} (hdt : 0 < ti.dt) (ht : ti.time < sync) :
    0 < (setTargetTime ti sync).dt := by
  simp only [setTargetTime]
  split
  · linarith
  · exact hdt

theorem quarter_pow (k : Nat) : 0 < (0.25:ℝ) ^ k ∧ (0.25:ℝ) ^ k ≤ 1 :=
  ⟨by positivity, pow_le_one₀ (by norm_num) (by norm_num)⟩

end TDy.Time.Proofs
