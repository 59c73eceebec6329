import Verif.Spec.RunOrder
import Verif.Props.RunBalance
import Verif.Props.FvtpfMonotone

/-!
# C194, C195: whole runs of the two-point method

C194: with incompressible water, what a run ends with depends on what it started with and not on the
nonlinear solver; more water at the start or in the sources means more water at the end, and two runs
never move apart.  C195: without gravity no run leaves the range of the pressures it started with.
-/

namespace TDy.Time.Props

open TDy TDy.Time TDy.Time.Spec TDy.Time.Proofs Finset

variable {V W : Type}

/-! ## The steps of a run depend on the failures of the solver alone -/

/-- A run without its vectors. -/
def eraseA (a : Attempt V) : Attempt Unit := ⟨a.start, a.dtime, (), (), (), a.ok⟩

def eraseE : Ev V → Ev Unit
  | .attempt a => .attempt (eraseA a)
  | .output t i _ => .output t i ()
  | .checkpoint t i _ => .checkpoint t i ()

def eraseS (s : Sim V) : Sim Unit :=
  ⟨s.ti, (), (), s.dtime, s.calls, s.trace.map eraseE⟩

def eraseL (l : Loop V) : Loop Unit := ⟨eraseS l.s, l.left, l.flag⟩

def eraseF (solver : Nat → V × Bool) : Nat → Unit × Bool := fun n => ((), (solver n).2)

def mapRes {α β : Type} (f : α → β) : Res α → Res β
  | .ok s => .ok (f s)
  | .err s => .err (f s)
  | .ub => .ub

theorem erase_out (c : Cfg) (s : Sim V) : eraseS (maybeOutput c s) = maybeOutput c (eraseS s) := by
  unfold maybeOutput
  by_cases h : c.outInterval > 0 ∧ s.ti.istep % c.outInterval = 0
  · rw [if_pos h, if_pos (show c.outInterval > 0 ∧ (eraseS s).ti.istep % c.outInterval = 0 from h)]
    simp [eraseS, eraseE]
  · rw [if_neg h, if_neg (show ¬(c.outInterval > 0 ∧ (eraseS s).ti.istep % c.outInterval = 0) from h)]

theorem erase_solve (solver : Nat → V × Bool) (s : Sim V) :
    eraseS (solve solver s) = solve (eraseF solver) (eraseS s) := by
  simp [eraseS, solve, eraseF, eraseE, eraseA]

theorem erase_inner (c : Cfg) (solver : Nat → V × Bool) : ∀ (r : Nat) (s : Sim V),
    inner c (eraseF solver) r (eraseS s) =
      mapRes (fun x : Sim V × Nat => (eraseS x.1, x.2)) (inner c solver r s) := by
  intro r
  induction r with
  | zero => intro s; rfl
  | succ r ih =>
    intro s
    unfold inner
    have e : (eraseF solver (eraseS s).calls).2 = (solver s.calls).2 := rfl
    rw [e]
    by_cases h1 : (solver s.calls).2 = true
    · simp only [h1, if_true, mapRes]
      rw [erase_out, ← erase_solve]; rfl
    · simp only [h1, Bool.false_eq_true, if_false]
      by_cases h2 : c.canCut = true
      · simp only [h2, if_true]
        by_cases h3 : r = 0
        · simp only [h3, if_true, mapRes]
          rw [← erase_solve]; rfl
        · simp only [h3, if_false]
          rw [← ih, erase_out, ← erase_solve]; rfl
      · simp only [h2, Bool.false_eq_true, if_false, mapRes]
        rw [← erase_solve]; rfl

theorem erase_ck (c : Cfg) (s : Sim V) (flag : Bool) :
    maybeCheckpoint c (eraseS s) flag =
      (maybeCheckpoint c s flag).map fun x => (eraseS x.1, x.2) := by
  unfold maybeCheckpoint
  have e : (eraseS s).ti = s.ti := rfl
  rw [e]
  split_ifs <;> simp [checkpoint, eraseS, eraseE]

theorem erase_round (c : Cfg) (solver : Nat → V × Bool) (sync : ℝ) (l : Loop V) :
    round c (eraseF solver) sync (eraseL l) = mapRes eraseL (round c solver sync l) := by
  unfold round
  have e : startStep sync (eraseL l).s = eraseS (startStep sync l.s) := rfl
  rw [e, show (eraseL l).left = l.left from rfl, erase_inner]
  cases inner c solver l.left (startStep sync l.s) with
  | err x => rfl
  | ub => rfl
  | ok x =>
    obtain ⟨s, left⟩ := x
    simp only [mapRes, show (eraseL l).flag = l.flag from rfl]
    rw [erase_ck]
    cases maybeCheckpoint c s l.flag with
    | none => rfl
    | some y => rfl

theorem erase_loop (c : Cfg) (solver : Nat → V × Bool) (sync : ℝ) : ∀ (f : Nat) (l : Loop V),
    loop c (eraseF solver) sync f (eraseL l) = (loop c solver sync f l).map (mapRes eraseL) := by
  intro f
  induction f with
  | zero => intro l; rfl
  | succ f ih =>
    intro l
    unfold loop
    simp only [show (eraseL l).s.ti.time = l.s.ti.time from rfl]
    by_cases h : l.s.ti.time < sync
    · simp only [h, if_true]
      rw [erase_round]
      cases round c solver sync l with
      | ok x => simp only [mapRes]; exact ih x
      | err x => rfl
      | ub => rfl
    · simp only [h, if_false]; rfl

theorem erase_run (c : Cfg) (solver : Nat → V × Bool) (sync : ℝ) (f : Nat) (s : Sim V) :
    runToTime c (eraseF solver) sync f (eraseS s) =
      (runToTime c solver sync f s).map (mapRes eraseS) := by
  unfold runToTime
  rw [show (⟨eraseS s, 25, false⟩ : Loop Unit) = eraseL ⟨s, 25, false⟩ from rfl, erase_loop]
  cases loop c solver sync f ⟨s, 25, false⟩ with
  | none => rfl
  | some r =>
    cases r with
    | err l => rfl
    | ub => rfl
    | ok l =>
      simp only [Option.map_some, mapRes]
      have : finish c (eraseL l) = eraseS (finish c l) := by
        unfold finish
        simp only [show (eraseL l).flag = l.flag from rfl]
        split_ifs
        · simp [checkpoint, eraseS, eraseL, eraseE]
        · rfl
      rw [this]

theorem loop_more (c : Cfg) (solver : Nat → V × Bool) (sync : ℝ) : ∀ (f k : Nat) (l : Loop V)
    (r : Res (Loop V)), loop c solver sync f l = some r → loop c solver sync (f + k) l = some r := by
  intro f
  induction f with
  | zero => intro k l r h; simp [loop] at h
  | succ f ih =>
    intro k l r h
    rw [show f + 1 + k = (f + k) + 1 by omega]
    unfold loop at h ⊢
    by_cases ht : l.s.ti.time < sync
    · simp only [ht, if_true] at h ⊢
      revert h
      cases round c solver sync l with
      | ok x => exact ih k x r
      | err x => exact id
      | ub => exact id
    · simpa only [ht, if_false] using h

theorem run_more (c : Cfg) (solver : Nat → V × Bool) (sync : ℝ) (f k : Nat) (s : Sim V)
    (r : Res (Sim V)) (h : runToTime c solver sync f s = some r) :
    runToTime c solver sync (f + k) s = some r := by
  unfold runToTime at h ⊢
  obtain ⟨x, h1, h2⟩ := Option.map_eq_some_iff.1 h
  rw [loop_more c solver sync f k _ x h1]
  simpa using h2

/-- A call has one result. -/
theorem returns_one {c : Cfg} {solver : Nat → V × Bool} {sync : ℝ} {s : Sim V} {r r' : Res (Sim V)}
    (h : Returns c solver sync s r) (h' : Returns c solver sync s r') : r = r' := by
  obtain ⟨f, h⟩ := h
  obtain ⟨g, h'⟩ := h'
  have a := run_more c solver sync f g s r h
  have b := run_more c solver sync g f s r' h'
  rw [Nat.add_comm] at b
  rw [a] at b
  exact Option.some.inj b

theorem erase_attempts (tr : List (Ev V)) : steps (attempts (tr.map eraseE)) = steps (attempts tr) := by
  induction tr with
  | nil => rfl
  | cons e tr ih =>
    cases e with
    | attempt a =>
      simp only [List.map_cons, eraseE, attempts_cons]
      unfold steps at ih ⊢
      rw [List.map_cons, List.map_cons, ih]; rfl
    | output t i v =>
      simpa only [List.map_cons, eraseE, attempts, List.filterMap_cons_none] using ih
    | checkpoint t i v =>
      simpa only [List.map_cons, eraseE, attempts, List.filterMap_cons_none] using ih

/-- The time integrators of two runs are in the same condition. -/
def SameClock (s : Sim V) (t : Sim W) : Prop := s.ti = t.ti ∧ s.dtime = t.dtime ∧ s.calls = t.calls

/-- C194: the steps of a run (their start, their length and whether they are accepted) depend on the
solver only through the calls that fail. -/
theorem C194_same_steps {c : Cfg} {solA : Nat → V × Bool} {solB : Nat → W × Bool}
    (fails : ∀ n, (solA n).2 = (solB n).2) {s s' : Sim V} {syncs : List ℝ} {l : List (Attempt V)}
    (hA : Runs c solA s syncs l s') : ∀ {t t' : Sim W} {m : List (Attempt W)},
    Runs c solB t syncs m t' → SameClock s t → steps l = steps m ∧ SameClock s' t' := by
  have hs : eraseF solA = eraseF solB := by funext n; simp [eraseF, fails]
  induction hA with
  | nil s =>
    intro t t' m hB h
    cases hB
    exact ⟨rfl, h⟩
  | @cons s s1 s' sync syncs l h1 ht h2 ih =>
    intro t t' m hB h
    cases hB with
    | @cons _ t1 _ _ _ m g1 gt g2 =>
      obtain ⟨f, h1⟩ := h1
      obtain ⟨g, g1⟩ := g1
      have a := erase_run c solA sync f { s with trace := [] }
      have b := erase_run c solB sync g { t with trace := [] }
      rw [h1] at a
      rw [g1] at b
      have e0 : eraseS { s with trace := [] } = eraseS { t with trace := [] } := by
        obtain ⟨k1, k2, k3⟩ := h
        simp [eraseS, k1, k2, k3]
      rw [hs, e0] at a
      have := returns_one ⟨f, a⟩ ⟨g, b⟩
      simp only [mapRes, Res.ok.injEq] at this
      have hc : SameClock s1 t1 := by
        refine ⟨?_, ?_, ?_⟩
        · have := congrArg (·.ti) this; exact this
        · have := congrArg (·.dtime) this; exact this
        · have := congrArg (·.calls) this; exact this
      obtain ⟨i1, i2⟩ := ih g2 hc
      refine ⟨?_, i2⟩
      have ha : steps (attempts s1.trace) = steps (attempts t1.trace) := by
        have e := congrArg (·.trace) this
        simp only [eraseS] at e
        rw [← erase_attempts s1.trace, e, erase_attempts]
      unfold steps at ha i1 ⊢
      rw [List.map_append, List.map_append, ha, i1]

/-! ## Two runs side by side -/

/-- `R` holds between the results of the accepted steps of two runs, one by one. -/
def Throughout (R : V → W → Prop) (l : List (Attempt V)) (m : List (Attempt W)) : Prop :=
  List.Forall₂ (fun a b => R a.result b.result) (l.filter fun a => a.ok) (m.filter fun b => b.ok)

theorem steps_cons_iff {a : Attempt V} {l : List (Attempt V)} {m : List (Attempt W)}
    (h : steps (a :: l) = steps m) :
    ∃ b m', m = b :: m' ∧ a.dtime = b.dtime ∧ a.ok = b.ok ∧ steps l = steps m' := by
  cases m with
  | nil => simp [steps] at h
  | cons b m' =>
    simp only [steps, List.map_cons, List.cons.injEq, Prod.mk.injEq] at h
    exact ⟨b, m', rfl, h.1.2.1, h.1.2.2, h.2⟩

theorem chains_related (R : V → W → Prop) (l : List (Attempt V)) : ∀ (m : List (Attempt W)) p q,
    steps l = steps m → FromAccepted p l → FromAccepted q m → R p q →
    (∀ a ∈ l, ∀ b ∈ m, a.ok = true → b.ok = true → a.dtime = b.dtime → R a.prev b.prev →
      R a.result b.result) →
    Throughout R l m ∧ R (lastAccepted p l) (lastAccepted q m) := by
  induction l with
  | nil =>
    intro m p q h _ _ hR _
    cases m with
    | nil => exact ⟨by simp [Throughout], hR⟩
    | cons b m => simp [steps] at h
  | cons a l ih =>
    intro m p q h hf hg hR hstep
    obtain ⟨b, m, rfl, hd, hok, hl⟩ := steps_cons_iff h
    obtain ⟨f1, -, f3⟩ := hf
    obtain ⟨g1, -, g3⟩ := hg
    have hstep' : ∀ a ∈ l, ∀ b ∈ m, a.ok = true → b.ok = true → a.dtime = b.dtime →
        R a.prev b.prev → R a.result b.result :=
      fun a ha b hb => hstep a (by simp [ha]) b (by simp [hb])
    cases hk : a.ok
    · have hk' : b.ok = false := by rw [← hok, hk]
      simp only [hk, Bool.false_eq_true, if_false] at f3
      simp only [hk', Bool.false_eq_true, if_false] at g3
      have := ih m p q hl f3 g3 hR hstep'
      simpa [Throughout, lastAccepted, hk, hk'] using this
    · have hk' : b.ok = true := by rw [← hok, hk]
      simp only [hk, if_true] at f3
      simp only [hk', if_true] at g3
      have hr := hstep a (by simp) b (by simp) hk hk' hd (by rw [f1, g1]; exact hR)
      have := ih m _ _ hl f3 g3 hr hstep'
      refine ⟨?_, by simpa [lastAccepted, hk, hk'] using this.2⟩
      unfold Throughout
      rw [List.filter_cons_of_pos (by simpa using hk), List.filter_cons_of_pos (by simpa using hk')]
      exact .cons hr this.1

theorem throughout_append {R : V → W → Prop} {l l' : List (Attempt V)} {m m' : List (Attempt W)}
    (h : Throughout R l m) (h' : Throughout R l' m') : Throughout R (l ++ l') (m ++ m') := by
  unfold Throughout at *
  rw [List.filter_append, List.filter_append]
  exact List.rel_append h h'

/-- What every pair of steps keeps, two runs with the same failures keep. -/
theorem runs_related {c : Cfg} {solA : Nat → V × Bool} {solB : Nat → W × Bool}
    (fails : ∀ n, (solA n).2 = (solB n).2) (R : V → W → Prop) {s s' : Sim V} {syncs : List ℝ}
    {l : List (Attempt V)} (hA : Runs c solA s syncs l s') : ∀ {t t' : Sim W} {m : List (Attempt W)},
    Runs c solB t syncs m t' → SameClock s t → Ready s → Ready t → R s.solnPrev t.solnPrev →
    (∀ a ∈ l, ∀ b ∈ m, a.ok = true → b.ok = true → a.dtime = b.dtime → R a.prev b.prev →
      R a.result b.result) →
    Throughout R l m ∧ R s'.solnPrev t'.solnPrev := by
  induction hA with
  | nil s =>
    intro t t' m hB _ _ _ h _
    cases hB
    exact ⟨by simp [Throughout], h⟩
  | @cons s s1 s' sync syncs l h1 ht h2 ih =>
    intro t t' m hB hc rs rt hR hstep
    cases hB with
    | @cons _ t1 _ _ _ m g1 gt g2 =>
      obtain ⟨k1, k2⟩ := C194_same_steps fails (.cons h1 ht (.nil s1)) (.cons g1 gt (.nil t1)) hc
      simp only [List.append_nil] at k1
      obtain ⟨f1, f2, -⟩ := C28_failed_solves_are_undone h1 (.inl rfl) rfl rs.2.2.2
      obtain ⟨e1, e2, -⟩ := C28_failed_solves_are_undone g1 (.inl rfl) rfl rt.2.2.2
      obtain ⟨i1, i2⟩ := chains_related R _ _ _ _ k1 f1 e1 hR fun a ha b hb =>
        hstep a (List.mem_append_left _ ha) b (List.mem_append_left _ hb)
      have hR1 : R s1.solnPrev t1.solnPrev := by rw [f2, e2]; exact i2
      obtain ⟨j1, j2⟩ := ih g2 k2 (ready_after h1 rs) (ready_after g1 rt) hR1 fun a ha b hb =>
        hstep a (List.mem_append_right _ ha) b (List.mem_append_right _ hb)
      exact ⟨throughout_append i1 j1, j2⟩

section Tpf
open TDy.Fvtpf TDy.Fvtpf.Spec TDy.Fvtpf.Props

/-- Two runs of the two-point method with the same calls, the same time integrator and solvers that
fail at the same calls; the accepted steps are solved and all states comparable. -/
structure TwoRuns (c : Cfg) (solA : Nat → V × Bool) (solB : Nat → W × Bool) (syncs : List ℝ)
    (s s' : Sim V) (t t' : Sim W) (l : List (Attempt V)) (m : List (Attempt W))
    (A : V → Fvtpf.Ctx) (B : W → Fvtpf.Ctx) (n : Nat) (rho vis : ℝ) : Prop where
  runA : Runs c solA s syncs l s'
  runB : Runs c solB t syncs m t'
  readyA : Ready s
  readyB : Ready t
  clock : SameClock s t
  fails : ∀ n, (solA n).2 = (solB n).2
  cells : ∀ U, (A U).numCells = n
  solvedA : ∀ a ∈ l, a.ok = true → StepSolved A a
  solvedB : ∀ b ∈ m, b.ok = true → StepSolved B b
  comparable : ∀ a ∈ l, ∀ b ∈ m, a.ok = true → b.ok = true →
    Comparable (A a.result) (B b.result) rho vis

variable {c : Cfg} {solA : Nat → V × Bool} {solB : Nat → W × Bool} {syncs : List ℝ} {s s' : Sim V}
  {t t' : Sim W} {l : List (Attempt V)} {m : List (Attempt W)} {A : V → Fvtpf.Ctx}
  {B : W → Fvtpf.Ctx} {n : Nat} {rho vis : ℝ}

/-- C194, order: if one of two runs starts with no more water in any cell and its sources give no more,
then it has no more water in any cell after each of its steps and at the end. -/
theorem C194_ordered (h : TwoRuns c solA solB syncs s s' t t' l m A B n rho vis)
    (start : ∀ j < n, mass (A s.solnPrev) j ≤ mass (B t.solnPrev) j)
    (source : ∀ U X, ∀ j < n, (A U).source j ≤ (B X).source j) :
    Throughout (fun U X => ∀ j < n, mass (A U) j ≤ mass (B X) j) l m ∧
      ∀ j < n, mass (A s'.solnPrev) j ≤ mass (B t'.solnPrev) j := by
  refine runs_related h.fails (fun U X => ∀ j < n, mass (A U) j ≤ mass (B X) j) h.runA h.runB h.clock
    h.readyA h.readyB start fun a ha b hb oa ob hd hprev => ?_
  have sa := h.solvedA a ha oa
  have sb := h.solvedB b hb ob
  unfold StepSolved at sa sb
  rw [← hd] at sb
  have := C181_ordered _ _ _ _ _ rho vis sa sb (h.comparable a ha b hb oa ob)
    (by rw [h.cells]; exact hprev) (by rw [h.cells]; exact source _ _)
  rwa [h.cells] at this

/-- C194, stability: two runs with the same sources never move apart. -/
theorem C194_contraction (h : TwoRuns c solA solB syncs s s' t t' l m A B n rho vis)
    (source : ∀ U X, ∀ j < n, (A U).source j = (B X).source j) :
    Throughout (fun U X => apart n (A U) (B X) ≤ apart n (A s.solnPrev) (B t.solnPrev)) l m ∧
      apart n (A s'.solnPrev) (B t'.solnPrev) ≤ apart n (A s.solnPrev) (B t.solnPrev) := by
  refine runs_related h.fails
    (fun U X => apart n (A U) (B X) ≤ apart n (A s.solnPrev) (B t.solnPrev)) h.runA h.runB h.clock
    h.readyA h.readyB le_rfl fun a ha b hb oa ob hd hprev => ?_
  have sa := h.solvedA a ha oa
  have sb := h.solvedB b hb ob
  unfold StepSolved at sa sb
  rw [← hd] at sb
  have := C181_contraction _ _ _ _ _ rho vis sa sb (h.comparable a ha b hb oa ob)
    (by rw [h.cells]; exact source _ _)
  rw [h.cells] at this
  exact this.trans hprev

/-- C194, one outcome: two runs that start with the same water and have the same sources have the same
water in every cell after each of their steps, whatever solvers are used. -/
theorem C194_one_outcome (h : TwoRuns c solA solB syncs s s' t t' l m A B n rho vis)
    (start : ∀ j < n, mass (A s.solnPrev) j = mass (B t.solnPrev) j)
    (source : ∀ U X, ∀ j < n, (A U).source j = (B X).source j) :
    Throughout (fun U X => ∀ j < n, mass (A U) j = mass (B X) j) l m ∧
      ∀ j < n, mass (A s'.solnPrev) j = mass (B t'.solnPrev) j := by
  have h0 : apart n (A s.solnPrev) (B t.solnPrev) = 0 := by
    unfold apart
    refine sum_eq_zero fun j hj => ?_
    rw [start j (mem_range.1 hj), sub_self, abs_zero]
  have key : ∀ a b : Fvtpf.Ctx, apart n a b ≤ apart n (A s.solnPrev) (B t.solnPrev) →
      ∀ j < n, mass a j = mass b j := by
    intro a b hab j hj
    rw [h0] at hab
    have hz := (sum_eq_zero_iff_of_nonneg (fun i _ => abs_nonneg (mass a i - mass b i))).1
      (le_antisymm hab (sum_nonneg fun i _ => abs_nonneg _)) j (mem_range.2 hj)
    linarith [abs_eq_zero.1 hz]
  obtain ⟨h1, h2⟩ := C194_contraction h source
  exact ⟨h1.imp fun a b hab => key _ _ hab, key _ _ h2⟩

/-! ## C195 -/

theorem chain_bounded (P : V → Prop) (l : List (Attempt V)) : ∀ p, FromAccepted p l → P p →
    (∀ a ∈ l, a.ok = true → P a.prev → P a.result) →
    (∀ a ∈ l, a.ok = true → P a.result) ∧ P (lastAccepted p l) := by
  induction l with
  | nil => intro p _ h _; exact ⟨by simp, h⟩
  | cons a l ih =>
    intro p hf hp hstep
    obtain ⟨f1, -, f3⟩ := hf
    cases hk : a.ok
    · simp only [hk, Bool.false_eq_true, if_false] at f3
      obtain ⟨i1, i2⟩ := ih p f3 hp fun b hb => hstep b (by simp [hb])
      refine ⟨fun b hb hok => ?_, by simpa [lastAccepted, hk] using i2⟩
      rcases List.mem_cons.1 hb with rfl | hb
      · rw [hk] at hok; cases hok
      · exact i1 b hb hok
    · simp only [hk, if_true] at f3
      have hr := hstep a (by simp) hk (by rw [f1]; exact hp)
      obtain ⟨i1, i2⟩ := ih _ f3 hr fun b hb => hstep b (by simp [hb])
      refine ⟨fun b hb hok => ?_, by simpa [lastAccepted, hk] using i2⟩
      rcases List.mem_cons.1 hb with rfl | hb
      · exact hr
      · exact i1 b hb hok

/-- What every accepted step keeps, a run keeps. -/
theorem runs_keep {c : Cfg} {solver : Nat → V × Bool} (P : V → Prop) {s s' : Sim V}
    {syncs : List ℝ} {l : List (Attempt V)} (h : Runs c solver s syncs l s') : Ready s →
    P s.solnPrev → (∀ a ∈ l, a.ok = true → P a.prev → P a.result) →
    (∀ a ∈ l, a.ok = true → P a.result) ∧ P s'.solnPrev := by
  induction h with
  | nil s => intro _ hp _; exact ⟨by simp, hp⟩
  | @cons s s1 s' sync syncs l h1 ht h2 ih =>
    intro hs hp hstep
    obtain ⟨f1, f2, -⟩ := C28_failed_solves_are_undone h1 (.inl rfl) rfl hs.2.2.2
    obtain ⟨i1, i2⟩ := chain_bounded P _ _ f1 hp fun a ha => hstep a (List.mem_append_left _ ha)
    obtain ⟨j1, j2⟩ := ih (ready_after h1 hs) (by rw [f2]; exact i2)
      fun a ha => hstep a (List.mem_append_right _ ha)
    refine ⟨fun a ha => ?_, j2⟩
    rcases List.mem_append.1 ha with ha | ha
    · exact i1 a ha
    · exact j1 a ha

/-- C195: a run without gravity and sources keeps the pressures of all cells between the lowest and the
highest of the pressures it starts with and those on the boundary, in every step it accepts and at the
end, however many solves fail. -/
theorem C195_run_bounds {c : Cfg} {solver : Nat → V × Bool} {s s' : Sim V} {syncs : List ℝ}
    {l : List (Attempt V)} (h : Runs c solver s syncs l s') (hs : Ready s) (A : V → Fvtpf.Ctx)
    (n : Nat) (lo hi : ℝ) (cells : ∀ U, (A U).numCells = n)
    (solved : ∀ a ∈ l, a.ok = true → StepSolved A a)
    (cond : ∀ a ∈ l, a.ok = true → Conducting (A a.result))
    (grav : ∀ U, (A U).gravity = ⟨0, 0, 0⟩) (src : ∀ U, ∀ j < n, (A U).source j = 0)
    (water : ∀ U X, ∀ j < n, MoreWater (A U) (A X) j)
    (bnd : ∀ U, ∀ b < (A U).numBnd, lo ≤ ((A U).bnds b).P ∧ ((A U).bnds b).P ≤ hi)
    (start : ∀ j < n, lo ≤ ((A s.solnPrev).cells j).P ∧ ((A s.solnPrev).cells j).P ≤ hi) :
    (∀ a ∈ l, a.ok = true → ∀ j < n, lo ≤ ((A a.result).cells j).P ∧ ((A a.result).cells j).P ≤ hi) ∧
      ∀ j < n, lo ≤ ((A s'.solnPrev).cells j).P ∧ ((A s'.solnPrev).cells j).P ≤ hi := by
  refine runs_keep (fun U => ∀ j < n, lo ≤ ((A U).cells j).P ∧ ((A U).cells j).P ≤ hi) h hs start
    fun a ha hok hp j hj => ?_
  have sa := solved a ha hok
  have hj' : j < (A a.result).numCells := by rw [cells]; exact hj
  constructor
  · exact C180_lowest _ _ _ lo sa (cond a ha hok) (grav _)
      (by rw [cells]; intro k hk; exact (src _ k hk).ge) (by rw [cells]; exact fun k hk => water _ _ k hk)
      (by rw [cells]; exact fun k hk => (hp k hk).1) (fun b hb => (bnd _ b hb).1) j hj'
  · exact C180_highest _ _ _ hi sa (cond a ha hok) (grav _)
      (by rw [cells]; intro k hk; exact (src _ k hk).le) (by rw [cells]; exact fun k hk => water _ _ k hk)
      (by rw [cells]; exact fun k hk => (hp k hk).2) (fun b hb => (bnd _ b hb).2) j hj'

end Tpf

noncomputable section

namespace OrderWitness
open TDy.Fvtpf TDy.Fvtpf.Spec TDy.Fvtpf.Props TDy.Fvtpf.Props.MonotoneWitness

/-- The state of two cells at the given pressures. -/
def at_ (U : ℝ × ℝ) : Fvtpf.Ctx := two U.1 U.2

/-- The first solve fails, the second one finds `r`. -/
def solver (r : ℝ × ℝ) : Nat → (ℝ × ℝ) × Bool := fun n => (r, n != 0)

def start (u : ℝ × ℝ) : Sim (ℝ × ℝ) :=
  { ti := { dtMax := 1e20, growth := 1.25, dt := 2, dtSave := 0, time := 0, istep := 0 }
    soln := u, solnPrev := u, dtime := 0, calls := 0, trace := [] }

def stop (u r : ℝ × ℝ) : Sim (ℝ × ℝ) :=
  ⟨⟨1e20, 1.25, 2.5, 0, 0.4, 1⟩, r, r, 0.1, 2,
    [.attempt ⟨0, 0.4, u, u, r, false⟩, .output 0 0 u, .attempt ⟨0, 0.1, u, u, r, true⟩,
     .output 0.1 1 r, .checkpoint 0.4 1 r]⟩

theorem run (u r : ℝ × ℝ) : Returns cfg0 (solver r) 0.4 (start u) (.ok (stop u r)) := by
  refine ⟨2, ?_⟩
  norm_num [runToTime, loop, round, inner, startStep, setTargetTime, start, solver, cfg0,
      solve, cutStep, restore, maybeOutput, accept, maybeCheckpoint, updateDT, checkpoint, finish,
      stop]

theorem runs (u r : ℝ × ℝ) :
    Runs cfg0 (solver r) (start u) [0.4] (attempts (stop u r).trace) (stop u r) := by
  have := Runs.cons (s := start u) (run u r) (by norm_num [start]) (.nil _)
  rwa [List.append_nil] at this

theorem ready (u : ℝ × ℝ) : Ready (start u) := by norm_num [Ready, start]

theorem the_step {u r : ℝ × ℝ} {a : Attempt (ℝ × ℝ)} (ha : a ∈ attempts (stop u r).trace)
    (hok : a.ok = true) : a = ⟨0, 0.1, u, u, r, true⟩ := by
  simp only [stop, attempts, List.filterMap_cons, List.filterMap_nil, List.mem_cons,
    List.not_mem_nil, or_false] at ha
  rcases ha with rfl | rfl
  · simp at hok
  · rfl

theorem solved (p q : ℝ) : ∀ a ∈ attempts (stop (p + (p - q)/2, q - (p - q)/2) (p, q)).trace,
    a.ok = true → StepSolved at_ a := by
  intro a ha hok
  rw [the_step ha hok]
  have := two_solved p q (1/10) (by norm_num)
  unfold StepSolved at_
  norm_num at this ⊢
  convert this using 2 <;> ring

theorem comparable_two (p q p' q' : ℝ) : Comparable (two p q) (two p' q') 1 1 := by
  have mono : ∀ p q p' q' : ℝ, MonotoneCurves (two p q) (two p' q') := by
    intro p q p' q' j _ h
    by_cases hj : j = 0
    · subst hj
      simp [two, side] at h
      simp [two, side, pair, mass]
      linarith
    · simp [two, side, hj] at h
      simp [two, side, pair, mass, hj]
      linarith
  have inc : ∀ p q : ℝ, Incompressible (two p q) 1 1 := by
    intro p q
    refine ⟨fun j _ => ?_, fun j _ => ?_, fun b hb => absurd hb (by simp [two, pair])⟩ <;>
      by_cases hj : j = 0 <;> simp [two, side, hj]
  exact ⟨rfl, two_conducting p q, two_conducting p' q', inc p q, inc p' q', mono _ _ _ _,
    mono _ _ _ _, by norm_num, by norm_num⟩

/-- Two runs, each with a failed solve; they start with different pressures. -/
theorem two_runs (p q p' q' : ℝ) : TwoRuns cfg0 (solver (p, q)) (solver (p', q')) [0.4]
    (start (p + (p - q)/2, q - (p - q)/2)) (stop (p + (p - q)/2, q - (p - q)/2) (p, q))
    (start (p' + (p' - q')/2, q' - (p' - q')/2)) (stop (p' + (p' - q')/2, q' - (p' - q')/2) (p', q'))
    (attempts (stop (p + (p - q)/2, q - (p - q)/2) (p, q)).trace)
    (attempts (stop (p' + (p' - q')/2, q' - (p' - q')/2) (p', q')).trace) at_ at_ 2 1 1 where
  runA := runs _ _
  runB := runs _ _
  readyA := ready _
  readyB := ready _
  clock := ⟨rfl, rfl, rfl⟩
  fails _ := rfl
  cells _ := rfl
  solvedA := solved p q
  solvedB := solved p' q'
  comparable _ _ _ _ _ _ := comparable_two _ _ _ _

/-- The hypotheses of C194 are met: from (5/2, 1/2) to (2, 1) and from (3, 1) to (5/2, 3/2). -/
example : ∀ j < 2, mass (two 2 1) j ≤ mass (two (5/2) (3/2)) j :=
  (C194_ordered (two_runs 2 1 (5/2) (3/2))
    (by
      intro j _
      by_cases hj : j = 0 <;> simp [at_, start, two, side, pair, mass, hj] <;> norm_num)
    (fun _ _ _ _ => le_rfl)).2

example : apart 2 (two 2 1) (two (5/2) (3/2)) ≤ apart 2 (two (5/2) (1/2)) (two 3 1) := by
  have := (C194_contraction (two_runs 2 1 (5/2) (3/2)) (fun _ _ _ _ => rfl)).2
  norm_num [start, stop, at_] at this
  exact this

/-- And those of `C194_one_outcome`. -/
example : ∀ j < 2, mass (two 2 1) j = mass (two 2 1) j :=
  (C194_one_outcome (two_runs 2 1 2 1) (fun _ _ => rfl) (fun _ _ _ _ => rfl)).2

/-- The hypotheses of C195 are met. -/
example : ∀ j < 2, 1/2 ≤ ((two 2 1).cells j).P ∧ ((two 2 1).cells j).P ≤ 5/2 := by
  refine (C195_run_bounds (runs (2 + (2 - 1)/2, 1 - (2 - 1)/2) (2, 1)) (ready _) at_ 2 (1/2) (5/2)
    (fun _ => rfl) (solved 2 1) (fun _ _ _ => two_conducting _ _) (fun _ => rfl) (fun _ _ _ => rfl)
    (fun _ _ j _ => two_more _ _ _ _ j) (fun _ b hb => absurd hb (by simp [at_, two, pair])) ?_).2
  intro j _
  by_cases hj : j = 0 <;> simp [at_, start, two, side, hj] <;> norm_num

end OrderWitness

end

end TDy.Time.Props
