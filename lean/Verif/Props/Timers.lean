import Verif.Spec.Timers
import Mathlib.Algebra.BigOperators.Group.List.Basic
import Mathlib.Algebra.BigOperators.Group.Finset.Sigma
import Mathlib.Data.Finset.Card
import Mathlib.Data.Finset.Basic
import Mathlib.Data.Fintype.Card
import Mathlib.Tactic.IntervalCases
import Mathlib.Algebra.Order.BigOperators.Group.Finset

/-!
# C165: Profiles attribute the time of every call to its function and its stage
# C166: The timing profile describes the run
-/

namespace TDy.Timers.Props

open TDy TDy.Timers TDy.Timers.Spec

/-! ### The registry -/

/-- Different names have different timers, and all were registered. -/
structure Sound (l : Log) : Prop where
  below : ∀ n i, l.table.lookup n = some i → i < l.registered
  distinct : ∀ n n' i, l.table.lookup n = some i → l.table.lookup n' = some i → n = n'
  fresh : ∀ i, l.registered ≤ i → l.event i = ⟨0, 0, 0⟩

theorem sound_empty : Sound Log.empty where
  below := by intro n i h; simp [Log.empty] at h
  distinct := by intro n n' i h; simp [Log.empty] at h
  fresh := fun _ _ => rfl

theorem lookup_cons_ite (n name : String) (i : Nat) (t : List (String × Nat)) :
    List.lookup n ((name, i) :: t) = if n = name then some i else t.lookup n := by
  rw [List.lookup_cons]
  by_cases h : n = name
  · simp [h]
  · have : (n == name) = false := by simpa using h
    rw [this, if_neg h]

/-- Looking a timer up keeps all records, and afterwards the name has this timer. -/
theorem getTimer_spec (l : Log) (h : Sound l) (name : String) :
    Sound (getTimer l name).2 ∧ (getTimer l name).2.table.lookup name = some (getTimer l name).1 ∧
    (getTimer l name).2.event = l.event ∧ ∀ n, record (getTimer l name).2 n = record l n := by
  unfold getTimer
  cases hl : l.table.lookup name with
  | some i => exact ⟨h, hl, rfl, fun n => rfl⟩
  | none =>
    refine ⟨⟨?_, ?_, ?_⟩, ?_, rfl, ?_⟩
    · intro n i hn
      simp only [lookup_cons_ite] at hn ⊢
      split at hn
      · injection hn with hn; omega
      · have := h.below n i hn; omega
    · intro n n' i hn hn'
      simp only [lookup_cons_ite] at hn hn'
      split at hn <;> split at hn'
      · rename_i a b; rw [a, b]
      · injection hn with hn
        have := h.below n' i hn'
        omega
      · injection hn' with hn'
        have := h.below n i hn
        omega
      · exact h.distinct n n' i hn hn'
    · intro i hi
      exact h.fresh i (by simp only at hi; omega)
    · simp only [lookup_cons_ite, if_true]
    · intro n
      simp only [record, lookup_cons_ite]
      split
      · rename_i e
        rw [e, hl]
        exact h.fresh _ (le_refl _)
      · rfl

/-- Changing the record of a timer changes that of its name only. -/
theorem record_wr (l : Log) (h : Sound l) (name : String) (i : Nat)
    (hi : l.table.lookup name = some i) (e : Event) (n : String) :
    record { l with event := wr l.event i e } n = if n = name then e else record l n := by
  simp only [record]
  split
  · rename_i hn
    rw [hn, hi]
    simp
  · rename_i hn
    cases hl : l.table.lookup n with
    | none => rfl
    | some j =>
      have : j ≠ i := fun hj => hn (h.distinct n name i (hj ▸ hl) hi)
      exact wr_other _ _ this

theorem sound_wr (l : Log) (h : Sound l) (name : String) (i : Nat)
    (hi : l.table.lookup name = some i) (e : Event) :
    Sound { l with event := wr l.event i e } where
  below := h.below
  distinct := h.distinct
  fresh := by
    intro j hj
    have := h.below name i hi
    have hj' : l.registered ≤ j := hj
    exact (wr_other _ _ (by omega)).trans (h.fresh j hj)

/-! ### Starting and stopping -/

/-- What starting does to a record. -/
def started (e : Event) (now : Int) : Event :=
  if e.depth = 0 then ⟨1, e.count + 1, e.time - now⟩ else { e with depth := e.depth + 1 }

/-- What stopping does to a record. -/
def stopped (e : Event) (now : Int) : Event :=
  if e.depth = 1 then ⟨0, e.count, e.time + now⟩ else { e with depth := e.depth - 1 }

theorem start_spec (l : Log) (h : Sound l) (name : String) (i : Nat)
    (hi : l.table.lookup name = some i) (now : Int) :
    Sound (startTimer l i now) ∧ (startTimer l i now).table = l.table ∧
    ∀ n, record (startTimer l i now) n =
      if n = name then started (record l name) now else record l n := by
  refine ⟨sound_wr l h name i hi _, rfl, fun n => ?_⟩
  have := record_wr l h name i hi (started (l.event i) now) n
  have hr : record l name = l.event i := by simp [record, hi]
  rw [hr, ← this]
  congr 1
  unfold startTimer started
  dsimp only
  by_cases hd : (l.event i).depth = 0
  · rw [if_neg (by omega), if_pos hd, hd]
  · rw [if_pos (by omega), if_neg hd]

theorem stop_spec (l : Log) (h : Sound l) (name : String) (i : Nat)
    (hi : l.table.lookup name = some i) (now : Int) (hd : (record l name).depth ≠ 0) :
    ∃ l', stopTimer l i now = .ok l' ∧ Sound l' ∧ l'.table = l.table ∧
    ∀ n, record l' n = if n = name then stopped (record l name) now else record l n := by
  have hr : record l name = l.event i := by simp [record, hi]
  rw [hr] at hd
  refine ⟨{ l with event := wr l.event i (stopped (l.event i) now) }, ?_,
    sound_wr l h name i hi _, rfl, fun n => ?_⟩
  · unfold stopTimer stopped
    dsimp only
    rw [if_neg hd]
    by_cases h1 : (l.event i).depth = 1
    · rw [if_neg (by omega), if_pos h1, h1]
    · rw [if_pos (by omega), if_neg h1]
  · rw [hr]
    exact record_wr l h name i hi _ n

/-- The record of a function that stops its timer, after an execution. -/
def after (name : String) (e : Event) (x : Exec) : Event :=
  if e.depth = 0 then
    ⟨0, e.count + (outermost name x).length, e.time + total (outermost name x)⟩
  else e

/-- The effect of begins without ends. -/
def never (b : List Int) (e : Event) : Event :=
  match b with
  | [] => e
  | t :: r =>
    if e.depth = 0 then ⟨r.length + 1, e.count + 1, e.time - t⟩
    else { e with depth := e.depth + r.length + 1 }

/-- The record of a function that does not stop its timer, after an execution. -/
def afterNever (name : String) (e : Event) (x : Exec) : Event := never (begins name x) e

theorem total_append (a b : List (Int × Int)) : total (a ++ b) = total a + total b := by
  simp [total]

/-- Sequencing of begins. -/
theorem never_seq (e : Event) (a b : List Int) : never b (never a e) = never (a ++ b) e := by
  cases a with
  | nil => rfl
  | cons t r =>
    cases b with
    | nil => simp [never]
    | cons t' r' =>
      by_cases h : e.depth = 0
      · simp only [never, h, if_true, List.cons_append, List.length_append, List.length_cons]
        rw [if_neg (by omega)]
        congr 1
        omega
      · have h' : ¬ (e.depth + r.length + 1 = 0) := by omega
        simp only [never, h, h', if_false, List.cons_append, List.length_append, List.length_cons]
        congr 1
        omega

/-- An execution ends, and every record is as described. -/
theorem run_spec (x : Exec) (l : Log) (h : Sound l) :
    ∃ l', run l x = .ok l' ∧ Sound l' ∧ (∀ n i, l.table.lookup n = some i →
        l'.table.lookup n = some i) ∧
      ∀ n, record l' n = if stops n then after n (record l n) x else afterNever n (record l n) x := by
  induction x generalizing l with
  | done =>
    refine ⟨l, rfl, h, fun _ _ h => h, fun n => ?_⟩
    split
    · unfold after
      split
      · rename_i hd
        simp only [outermost, total, List.length_nil, List.map_nil, List.sum_nil, Nat.add_zero,
          Int.add_zero]
        rw [← hd]
      · rfl
    · rfl
  | call name t0 t1 inside rest ihi ihr =>
    obtain ⟨g1, g2, g3, g4⟩ := getTimer_spec l h name
    have hg5 : ∀ n i, l.table.lookup n = some i →
        (getTimer l name).2.table.lookup n = some i := by
      intro n i hn
      unfold getTimer
      cases hl : l.table.lookup name with
      | some j => exact hn
      | none =>
        simp only [lookup_cons_ite]
        rw [if_neg (fun e => by rw [e, hl] at hn; cases hn)]
        exact hn
    obtain ⟨s1, s2, s3⟩ := start_spec _ g1 name _ g2 t0
    obtain ⟨l1, hi1, hi2, hi3, hi4⟩ := ihi _ s1
    have hlk : l1.table.lookup name = some (getTimer l name).1 := hi3 _ _ (by rw [s2]; exact g2)
    by_cases hs : stops name = true
    · have hrec : record l1 name = started (record l name) t0 := by
        rw [hi4, if_pos hs, s3, if_pos rfl, g4]
        unfold after started
        by_cases hd : (record l name).depth = 0
        · rw [if_pos hd, if_neg (by simp)]
        · rw [if_neg hd, if_neg (by simp)]
      have hd1 : (record l1 name).depth ≠ 0 := by
        rw [hrec]; unfold started; split <;> simp
      obtain ⟨l2, p1, p2, p3, p4⟩ := stop_spec l1 hi2 name _ hlk t1 hd1
      obtain ⟨l3, r1, r2, r3, r4⟩ := ihr l2 p2
      refine ⟨l3, ?_, r2, ?_, ?_⟩
      · show Res.bind (run (startTimer (getTimer l name).2 (getTimer l name).1 t0) inside) _ = _
        rw [hi1]
        show Res.bind (if stops name then stopTimer l1 (getTimer l name).1 t1 else .ok l1) _ = _
        rw [if_pos hs, p1]
        exact r1
      · intro n i hn
        exact r3 n i (by rw [p3]; exact hi3 n i (by rw [s2]; exact hg5 n i hn))
      · intro n
        rw [r4]
        by_cases hn : n = name
        · subst hn
          rw [if_pos hs, if_pos hs, p4, if_pos rfl, hrec]
          unfold after stopped started
          by_cases hd : (record l n).depth = 0
          · simp only [hd, if_true, outermost, total_append, List.length_append,
              List.length_singleton]
            congr 1
            · omega
            · simp only [total, List.map_cons, List.map_nil, List.sum_cons, List.sum_nil]; omega
          · simp only [hd, if_false]
            rw [if_neg (show ¬ (record l n).depth + 1 = 1 by omega)]
            simp only [Nat.add_sub_cancel]
            rw [if_neg hd]
        · rw [p4, if_neg hn, hi4, s3, if_neg hn, g4]
          split
          · unfold after
            by_cases hd : (record l n).depth = 0
            · simp only [hd, if_true, outermost, if_neg (fun e => hn (Eq.symm e)),
                total_append, List.length_append]
              congr 1 <;> omega
            · simp only [hd, if_false]
          · unfold afterNever
            simp only [begins, if_neg (fun e => hn (Eq.symm e)), List.nil_append]
            exact never_seq _ _ _
    · have hs' : stops name = false := by simpa using hs
      obtain ⟨l3, r1, r2, r3, r4⟩ := ihr l1 hi2
      refine ⟨l3, ?_, r2, ?_, ?_⟩
      · show Res.bind (run (startTimer (getTimer l name).2 (getTimer l name).1 t0) inside) _ = _
        rw [hi1]
        show Res.bind (if stops name then stopTimer l1 (getTimer l name).1 t1 else .ok l1) _ = _
        rw [if_neg hs]
        exact r1
      · intro n i hn
        exact r3 n i (hi3 n i (by rw [s2]; exact hg5 n i hn))
      · intro n
        rw [r4, hi4, s3]
        by_cases hn : n = name
        · subst hn
          rw [if_neg hs, if_neg hs, if_neg hs, if_pos rfl, g4]
          have h3 : started (record l n) t0 = never [t0] (record l n) := by
            simp only [started, never, List.length_nil, Nat.zero_add, Nat.add_zero]
          unfold afterNever
          rw [h3, never_seq, never_seq]
          simp only [begins, if_true, List.append_assoc]
        · rw [if_neg hn, g4]
          split
          · unfold after
            by_cases hd : (record l n).depth = 0
            · simp only [hd, if_true, outermost, if_neg (fun e => hn (Eq.symm e)),
                total_append, List.length_append]
              congr 1 <;> omega
            · simp only [hd, if_false]
          · unfold afterNever
            simp only [begins, if_neg (fun e => hn (Eq.symm e)), List.nil_append]
            exact never_seq _ _ _

theorem record_empty (n : String) : record Log.empty n = ⟨0, 0, 0⟩ := by
  simp [record, Log.empty]

/-- C165.  In every execution, no timer is stopped that is not running, and the record of every
function that stops its timer has the number of its (outermost) calls and their total time. -/
theorem C165_calls_and_time_partial (x : Exec) :
    ∃ l, run Log.empty x = .ok l ∧ ∀ name, stops name = true →
      (record l name).count = (outermost name x).length ∧
      (record l name).time = total (outermost name x) ∧ (record l name).depth = 0 := by
  obtain ⟨l, h1, -, -, h4⟩ := run_spec x Log.empty sound_empty
  refine ⟨l, h1, fun name hs => ?_⟩
  rw [h4, if_pos hs, record_empty]
  simp [after]

/-- C165.  The record of a function that does not stop its timer counts one call, whatever the number of
calls, and has the negative of the first call's begin as its time. -/
theorem C165_never_stopped (x : Exec) (name : String) (hs : stops name = false) (t : Int)
    (r : List Int) (hb : begins name x = t :: r) :
    ∃ l, run Log.empty x = .ok l ∧ (record l name).count = 1 ∧ (record l name).time = -t := by
  obtain ⟨l, h1, -, -, h4⟩ := run_spec x Log.empty sound_empty
  refine ⟨l, h1, ?_⟩
  rw [h4, if_neg (by simp [hs]), record_empty]
  simp [afterNever, never, hb]

/-- Two evaluations of the Jacobian of the two-point method, with a state update in the first. -/
def jacobians : Exec :=
  .call "TDyFVTPFSNESJacobian" 10 30 (.call "TDyUpdateState" 12 14 .done .done)
    (.call "TDyFVTPFSNESJacobian" 40 60 .done .done)

/-- C165.  The full property is false: the Jacobian of the two-point method runs for 40 units in two
calls; its record says one call and -10 units. -/
theorem C165_violated : ∃ x l, run Log.empty x = .ok l ∧
    outermost "TDyFVTPFSNESJacobian" x = [(10, 30), (40, 60)] ∧
    (record l "TDyFVTPFSNESJacobian").count = 1 ∧
    (record l "TDyFVTPFSNESJacobian").time = -10 := by
  obtain ⟨l, h1, h2, h3⟩ := C165_never_stopped jacobians "TDyFVTPFSNESJacobian" (by decide) 10 [40]
    (by decide)
  exact ⟨jacobians, l, h1, by decide, h2, h3⟩

/-- The same execution has a function whose record is right. -/
example : ∃ l, run Log.empty jacobians = .ok l ∧ (record l "TDyUpdateState").count = 1 ∧
    (record l "TDyUpdateState").time = 2 := by
  obtain ⟨l, h1, h2⟩ := C165_calls_and_time_partial jacobians
  obtain ⟨h3, h4, -⟩ := h2 "TDyUpdateState" (by decide)
  exact ⟨l, h1, h3.trans (by decide), h4.trans (by decide)⟩

/-! ### Stages -/

/-- The function enters the stage of the set-up. -/
def inSetup (name : String) : Bool := (stageOf name).isSome

theorem addCurrent_stack (s : Stages) (dt : Int) : (addCurrent s dt).stack = s.stack := by
  unfold addCurrent; split <;> rfl

theorem addCurrent_time (s : Stages) (dt : Int) (c : String) (r : List String) (h : s.stack = c :: r)
    (n : String) : (addCurrent s dt).time n = if n = c then s.time n + dt else s.time n := by
  unfold addCurrent
  rw [h]
  rfl

theorem stageOf_cases (name : String) : stageOf name = none ∨ stageOf name = some "TDycore Setup" := by
  unfold stageOf; split <;> simp

/-- Entering and leaving the stage of the set-up. -/
theorem enter_spec (s : Stages) (c : String) (r : List String) (h : s.stack = c :: r) (t : Int) :
    (enterStage s "TDycore Setup" t).stack = "TDycore Setup" :: c :: r ∧
    ∀ n, (enterStage s "TDycore Setup" t).time n =
      s.time n + (if n = c then t else 0) - (if n = "TDycore Setup" then t else 0) := by
  unfold enterStage
  rw [if_pos (by decide), addCurrent_stack]
  refine ⟨by simp [h], fun n => ?_⟩
  rw [addCurrent_time _ _ "TDycore Setup" s.stack rfl]
  simp only [addCurrent_time s t c r h]
  split <;> split <;> omega

theorem exit_spec (s : Stages) (c : String) (r : List String)
    (h : s.stack = "TDycore Setup" :: c :: r) (t : Int) :
    (exitStage s "TDycore Setup" t).stack = c :: r ∧
    ∀ n, (exitStage s "TDycore Setup" t).time n =
      s.time n + (if n = "TDycore Setup" then t else 0) - (if n = c then t else 0) := by
  unfold exitStage
  rw [if_pos (by decide), addCurrent_stack]
  refine ⟨by simp [h], fun n => ?_⟩
  rw [addCurrent_time _ _ c r (by simp [h])]
  simp only [addCurrent_time s t _ _ h]
  split <;> split <;> omega

/-- The stages after an execution. -/
theorem stages_spec (x : Exec) (s : Stages) (c : String) (r : List String) (h : s.stack = c :: r) :
    (runStages s x).stack = c :: r ∧
    ∀ n, (runStages s x).time n = s.time n +
      (if n = "TDycore Setup" then (if c = n then 0 else total (outermostOf inSetup x)) else
        if n = c then (if c = "TDycore Setup" then 0 else -total (outermostOf inSetup x)) else 0) := by
  induction x generalizing s c r with
  | done =>
    refine ⟨h, fun n => ?_⟩
    simp only [outermostOf, total, List.map_nil, List.sum_nil]
    show s.time n = _
    split_ifs <;> omega
  | call name t0 t1 inside rest ihi ihr =>
    rcases stageOf_cases name with hs | hs
    · have hp : inSetup name = false := by simp [inSetup, hs]
      obtain ⟨a1, a2⟩ := ihi s c r h
      obtain ⟨b1, b2⟩ := ihr _ c r a1
      have hr : runStages s (.call name t0 t1 inside rest) = runStages (runStages s inside) rest := by
        rw [runStages, hs]
      rw [hr]
      refine ⟨b1, fun n => ?_⟩
      rw [b2, a2]
      simp only [outermostOf, hp, Bool.false_eq_true, if_false, total_append]
      split_ifs <;> omega
    · have hp : inSetup name = true := by simp [inSetup, hs]
      obtain ⟨e1, e2⟩ := enter_spec s c r h t0
      obtain ⟨a1, a2⟩ := ihi _ _ _ e1
      obtain ⟨f1, f2⟩ := exit_spec _ c r a1 t1
      obtain ⟨b1, b2⟩ := ihr _ c r f1
      have hr : runStages s (.call name t0 t1 inside rest) =
          runStages (exitStage (runStages (enterStage s "TDycore Setup" t0) inside)
            "TDycore Setup" t1) rest := by
        rw [runStages, hs]
      rw [hr]
      refine ⟨b1, fun n => ?_⟩
      rw [b2, f2, a2, e2]
      have ht : total (outermostOf inSetup (.call name t0 t1 inside rest)) =
          t1 - t0 + total (outermostOf inSetup rest) := by
        simp only [outermostOf, hp, if_true, total_append]
        simp [total]
      rw [ht]
      by_cases h1 : n = "TDycore Setup"
      · subst h1
        simp only [if_true]
        split_ifs <;> first | omega | (exfalso; simp_all)
      · simp only [h1, if_false]
        split_ifs <;> first | omega | (exfalso; simp_all)

/-- PETSc's stages at the start: the main stage. -/
def mainStage : Stages := ⟨["Main Stage"], fun _ => 0⟩

/-- C165.  In every execution the stage of the set-up gets the time of the functions that enter it
(nested ones once) and the stack of stages is restored.  These functions include the update of the
state, in every time step; the stages of stepping and of I/O, which are registered, never get any
time. -/
theorem C165_stages (x : Exec) :
    (runStages mainStage x).stack = mainStage.stack ∧
    (runStages mainStage x).time "TDycore Setup" = total (outermostOf (fun n =>
      n = "TDyDriverInitializeTDy" ∨ n = "TDySetup" ∨ n = "TDyUpdateState") x) ∧
    (runStages mainStage x).time "TDycore Stepping" = 0 ∧
    (runStages mainStage x).time "TDycore I/O" = 0 := by
  have hq : inSetup = fun n =>
      decide (n = "TDyDriverInitializeTDy" ∨ n = "TDySetup" ∨ n = "TDyUpdateState") := by
    funext n
    simp only [inSetup, stageOf]
    split
    · rename_i h; simp [h]
    · rename_i h; simp only [h, decide_false]; rfl
  obtain ⟨h1, h2⟩ := stages_spec x mainStage "Main Stage" [] rfl
  rw [← hq]
  refine ⟨h1, ?_, ?_, ?_⟩
  · rw [h2, if_pos rfl, if_neg (by decide)]; simp [mainStage]
  · rw [h2, if_neg (by decide), if_neg (by decide)]; simp [mainStage]
  · rw [h2, if_neg (by decide), if_neg (by decide)]; simp [mainStage]

example : (runStages mainStage (.call "TDyRunToTime" 0 100
    (.call "TDyUpdateState" 20 50 .done .done) .done)).time "TDycore Setup" = 30 :=
  (C165_stages _).2.1.trans (by decide)

/-! ### The timing profile -/

/-- The sum of the loop over ranks. -/
theorem forN_sum (n : Nat) (f : Nat → Nat) :
    forN n (fun r s => s + f r) 0 = ∑ r ∈ Finset.range n, f r := by
  induction n with
  | zero => rfl
  | succ n ih => rw [forN, ih, Finset.sum_range_succ]

/-- C166.  One TDy with MPFA-O or the two-point method is set up on every rank, timers are enabled, and
every cell of the mesh is local to exactly one rank: the file says the mode, the method, the number of
ranks and the number of cells of the mesh. -/
theorem C166_describes_the_run_partial (numRanks : Nat) (hr : 0 < numRanks) (d : Nat → Dycore)
    (mode : String) (method : Method) (hmode : ∀ r, (d r).mode = mode)
    (hmethod : ∀ r, (d r).method = method) (hm : method = .mpfao ∨ method = .fvtpf)
    (cells : Finset Nat) (owner : Nat → Nat) (ho : ∀ c ∈ cells, owner c < numRanks)
    (hlocal : ∀ r < numRanks, (d r).numCellsLocal = (cells.filter fun c => owner c = r).card)
    (first : List (Nat × Meta) → Option Meta) (hf : Picks first) :
    ∃ p : Nat → Prof, (∀ r, setMetadata ⟨true, []⟩ numRanks (d r) = .ok (p r)) ∧
      ∀ filename, ∃ w, writeProfile filename numRanks p first = .ok (some w) ∧
        w.footer = ⟨mode, method, numRanks, cells.card⟩ := by
  have hset : ∀ r, setMetadata ⟨true, []⟩ numRanks (d r) =
      .ok ⟨true, [((d r).address, ⟨mode, method, (d r).numCellsLocal, numRanks⟩)]⟩ := by
    intro r
    unfold setMetadata
    rw [if_neg (by simp), if_neg]
    · simp [hmode, hmethod]
    · rw [hmethod]
      rcases hm with h | h <;> subst h <;> decide
  refine ⟨_, hset, fun filename => ?_⟩
  have hpick : ∀ r, first [((d r).address, (⟨mode, method, (d r).numCellsLocal, numRanks⟩ : Meta))]
      = some ⟨mode, method, (d r).numCellsLocal, numRanks⟩ := by
    intro r
    obtain ⟨m, h1, h2⟩ := hf.1 [((d r).address, ⟨mode, method, (d r).numCellsLocal, numRanks⟩)]
      (by simp)
    rw [h1]
    simp only [List.map_cons, List.map_nil, List.mem_singleton] at h2
    rw [h2]
  unfold writeProfile
  rw [if_neg (by simp), if_neg (by
    rintro ⟨r, -, h⟩
    rw [hpick] at h
    cases h)]
  simp only [hpick]
  refine ⟨_, rfl, ?_⟩
  simp only [Option.elim_some]
  rw [forN_sum]
  congr 1
  rw [Finset.card_eq_sum_card_fiberwise (f := owner) (t := Finset.range numRanks)
    (fun c hc => by simpa using ho c hc)]
  exact Finset.sum_congr rfl fun r h => hlocal r (Finset.mem_range.1 h)

/-- The hypotheses are met: five cells on two ranks. -/
example : ∃ p : Nat → Prof, (∀ r, setMetadata ⟨true, []⟩ 2
      ⟨64 + r, "richards", .mpfao, if r = 0 then 2 else 3⟩ = .ok (p r)) ∧
    ∀ filename, ∃ w, writeProfile filename 2 p (fun t => t.head?.map Prod.snd) = .ok (some w) ∧
      w.footer = ⟨"richards", .mpfao, 2, 5⟩ :=
  C166_describes_the_run_partial 2 (by decide)
    (fun r => ⟨64 + r, "richards", .mpfao, if r = 0 then 2 else 3⟩) "richards" .mpfao
    (fun _ => rfl) (fun _ => rfl) (Or.inl rfl) (Finset.range 5) (fun c => if c < 2 then 0 else 1)
    (by intro c _; split <;> decide)
    (by intro r hr; interval_cases r <;> decide)
    (fun t => t.head?.map Prod.snd)
    ⟨by intro t ht
        cases t with
        | nil => exact absurd rfl ht
        | cons a t => exact ⟨a.2, rfl, by simp⟩, rfl⟩

/-- C166.  Timers that are not enabled have no effect on any method. -/
theorem C166_disabled_no_effect (p : Prof) (h : p.enabled = false) (numProc : Nat) (d : Dycore) :
    setMetadata p numProc d = .ok p := by
  unfold setMetadata; rw [if_pos h]

/-- C166.  With timers, the set-up of the methods with finite elements and of the DAE form is
undefined, in every state: another struct, or a NULL pointer, is taken for the mesh of MPFA-O. -/
theorem C166_other_methods_undefined (p : Prof) (h : p.enabled = true) (numProc : Nat) (d : Dycore)
    (hd : d.method = .bdm ∨ d.method = .wy ∨ d.method = .mpfaoDae) :
    setMetadata p numProc d = .ub := by
  unfold setMetadata
  rw [if_neg (by simp [h]), if_pos]
  rcases hd with h | h | h <;> rw [h] <;> decide

/-- C166.  The name of the file is not used. -/
theorem C166_filename_ignored (filename : String) (numRanks : Nat) (p : Nat → Prof)
    (first : List (Nat × Meta) → Option Meta) (w : Written)
    (h : writeProfile filename numRanks p first = .ok (some w)) : w.file = "tdycore_profile.csv" := by
  unfold writeProfile at h
  split at h
  · cases h
  · split at h
    · cases h
    · split at h
      · cases h
      · injection h with h; injection h with h; rw [← h]

/-- C166.  A program that enables timers and sets nothing up runs into undefined behaviour at the end. -/
theorem C166_nothing_set_up (filename : String) (numRanks : Nat) (hr : 0 < numRanks)
    (first : List (Nat × Meta) → Option Meta) (hf : Picks first) :
    writeProfile filename numRanks (fun _ => ⟨true, []⟩) first = .ub := by
  unfold writeProfile
  rw [if_neg (by simp), if_pos ⟨0, hr, hf.2⟩]

/-- C166.  Data of an address are stored once: after a second set-up (of the same TDy, or of another one
that was given the memory of a destroyed one) the profile still describes the first. -/
theorem C166_stale (numProc : Nat) (d d' : Dycore) (ha : d'.address = d.address)
    (hm : d.method = .mpfao ∨ d.method = .fvtpf) (hm' : d'.method = .mpfao ∨ d'.method = .fvtpf) :
    ∃ p, setMetadata ⟨true, []⟩ numProc d = .ok p ∧ setMetadata p numProc d' = .ok p ∧
      p.table = [(d.address, ⟨d.mode, d.method, d.numCellsLocal, numProc⟩)] := by
  refine ⟨⟨true, [(d.address, ⟨d.mode, d.method, d.numCellsLocal, numProc⟩)]⟩, ?_, ?_, rfl⟩
  · unfold setMetadata
    rw [if_neg (by simp), if_neg]
    · simp
    · rcases hm with h | h <;> rw [h] <;> decide
  · unfold setMetadata
    rw [if_neg (by simp), if_neg]
    · simp [ha]
    · rcases hm' with h | h <;> rw [h] <;> decide

/-- C166.  The full property is false: Wheeler-Yotov with timers is undefined, and a profile asked for
under another name is written to `tdycore_profile.csv`. -/
theorem C166_violated :
    setMetadata ⟨true, []⟩ 1 ⟨64, "richards", .wy, 8⟩ = .ub ∧
    ∃ p w, setMetadata ⟨true, []⟩ 1 ⟨64, "richards", .mpfao, 8⟩ = .ok p ∧
      writeProfile "mine.csv" 1 (fun _ => p) (fun t => t.head?.map Prod.snd) = .ok (some w) ∧
      w.file ≠ "mine.csv" := by
  refine ⟨C166_other_methods_undefined _ rfl 1 _ (Or.inr (Or.inl rfl)), ?_⟩
  refine ⟨⟨true, [(64, ⟨"richards", .mpfao, 8, 1⟩)]⟩,
    ⟨"tdycore_profile.csv", ⟨"richards", .mpfao, 1, 8⟩⟩, ?_, ?_, by decide⟩
  · rfl
  · rfl

end TDy.Timers.Props
