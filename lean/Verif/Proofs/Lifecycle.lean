import Verif.Spec.Lifecycle

/-! Helper lemmas for `Verif/Props/Lifecycle.lean`. -/

namespace TDy.Proofs

open TDy

/-- `r` ends (with 0 or an error code) in a state satisfying `P`, or is undefined. -/
def Ends (r : Res State) (P : State → Prop) : Prop :=
  match r with
  | .ok s => P s
  | .err s => P s
  | .ub => True

theorem Ends.bind {r : Res State} {f : State → Res State} {P Q : State → Prop}
    (h : Ends r P) (hQ : ∀ s, P s → Q s) (hf : ∀ s, P s → Ends (f s) Q) :
    Ends (r.bind f) Q := by
  cases r with
  | ok s => exact hf s h
  | err s => exact hQ s h
  | ub => trivial

theorem Ends.bindIgnore {r : Res State} {f : State → Res State} {P Q : State → Prop}
    (h : Ends r P) (hf : ∀ s, P s → Ends (f s) Q) :
    Ends (r.bindIgnore f) Q := by
  cases r with
  | ok s => exact hf s h
  | err s => exact hf s h
  | ub => trivial

theorem Ends.mono {r : Res State} {P Q : State → Prop} (h : Ends r P) (hPQ : ∀ s, P s → Q s) :
    Ends r Q := by
  cases r with
  | ok s => exact hPQ s h
  | err s => exact hPQ s h
  | ub => trivial

/-- What configuration calls never touch. -/
structure Frame (s s' : State) : Prop where
  matprop : s'.matprop = s.matprop
  setupFinished : s'.flags.setupFinished = s.flags.setupFinished
  optionsSet : s'.flags.optionsSet = s.flags.optionsSet
  context : s'.context = s.context

theorem setDisc_frame (s : State) (d : Disc) : Ends (setDisc s d) (Frame s) := by
  unfold setDisc
  split
  · exact ⟨rfl, rfl, rfl, rfl⟩
  · split <;> exact ⟨rfl, rfl, rfl, rfl⟩

theorem setMode_frame (s : State) (m : Mode) : Ends (setMode s m) (Frame s) := by
  unfold setMode
  dsimp only
  split
  · exact (setDisc_frame _ _).mono fun s' h => ⟨h.1, h.2, h.3, h.4⟩
  · exact ⟨rfl, rfl, rfl, rfl⟩

theorem setMode_discSet (s : State) (m : Mode) :
    Ends (setMode s m) (fun s' => s'.flags.discSet = s.flags.discSet) := by
  unfold setMode setDisc
  dsimp only
  split
  · rename_i h
    split
    · rfl
    · split <;> simp_all [Ends]
  · rfl

theorem readCommandLine_frame (s : State) (c : CmdLine) :
    Ends (readCommandLine s c) (Frame s) := by
  unfold readCommandLine
  split
  · exact ⟨rfl, rfl, rfl, rfl⟩
  · dsimp only
    refine Ends.bindIgnore (P := Frame s) ?_ ?_
    · split
      · exact (setMode_frame _ _).mono fun s' h => ⟨h.1, h.2, h.3, h.4⟩
      · exact ⟨rfl, rfl, rfl, rfl⟩
    · intro s1 h1
      refine Ends.bindIgnore (P := Frame s) ?_ ?_
      · split
        · exact (setDisc_frame _ _).mono fun s' h =>
            ⟨h.1.trans h1.1, h.2.trans h1.2, h.3.trans h1.3, h.4.trans h1.4⟩
        · exact h1
      · intro s2 h2
        split <;> exact ⟨h2.1, h2.2, h2.3, h2.4⟩

theorem readCommandLine_discSet (s : State) (c : CmdLine) :
    Ends (readCommandLine s c)
      (fun s' => s'.flags.discSet = true → s.flags.discSet = true ∨ ∃ d, c.disc = some d) := by
  unfold readCommandLine
  split
  · exact fun h => Or.inl h
  · dsimp only
    -- the mode override does not change which discretization is recorded in the options
    have key : ∀ s1 : State, (s1.flags.discSet = s.flags.discSet) →
        (s1.opts.disc = s.opts.disc) →
        Ends (if s1.opts.disc ≠ c.disc.getD s.opts.disc then setDisc s1 (c.disc.getD s.opts.disc)
          else .ok s1)
        (fun s' => s'.flags.discSet = true → s.flags.discSet = true ∨ ∃ d, c.disc = some d) := by
      intro s1 h1 h1'
      by_cases hd : ∃ d, c.disc = some d
      · have : ∀ s', (fun s' : State => s'.flags.discSet = true →
            s.flags.discSet = true ∨ ∃ d, c.disc = some d) s' := fun _ _ => Or.inr hd
        split
        · exact (setDisc_frame _ _).mono fun s' _ => this s'
        · exact this _
      · have hn : c.disc = none := by
          cases hc : c.disc with
          | none => rfl
          | some d => exact absurd ⟨d, hc⟩ hd
        simp only [hn, Option.getD_none, h1', ne_eq, not_true_eq_false, if_false]
        exact fun h => Or.inl (h1 ▸ h)
    refine Ends.bindIgnore
      (P := fun s1 => s1.flags.discSet = s.flags.discSet ∧ s1.opts.disc = s.opts.disc) ?_ ?_
    · have hrv : (readValues s.opts c).disc = s.opts.disc := by
        rfl
      split
      · unfold setMode setDisc
        dsimp only
        split
        · rename_i hds
          simp only [Bool.true_eq_false, if_false]
          split
          · exact ⟨rfl, hrv⟩
          · exact ⟨by simp_all, hrv⟩
        · exact ⟨rfl, hrv⟩
      · exact ⟨rfl, hrv⟩
    · intro s1 h1
      refine Ends.bindIgnore (key s1 h1.1 h1.2) ?_
      intro s2 h2
      split <;> exact h2

theorem chooseDm_frame (s : State) (e : OptEnv) :
    Ends (chooseDm s e) (fun s' => Frame s s' ∧ s'.flags.discSet = s.flags.discSet) := by
  unfold chooseDm
  split
  · split
    · trivial
    · split <;> exact ⟨⟨rfl, rfl, rfl, rfl⟩, rfl⟩
  · split
    · exact ⟨⟨rfl, rfl, rfl, rfl⟩, rfl⟩
    · dsimp only
      split
      · exact ⟨⟨rfl, rfl, rfl, rfl⟩, rfl⟩
      · split
        · trivial
        · exact ⟨⟨rfl, rfl, rfl, rfl⟩, rfl⟩

/-- `TDySetFromOptions`: the setup flag is never touched; the discretization flag only by an
override; the material properties only appear on success. -/
theorem setFromOptions_ends (s : State) (c : CmdLine) (e : OptEnv) :
    Ends (setFromOptions s c e) (fun s' =>
      s'.flags.setupFinished = s.flags.setupFinished ∧
      (s'.flags.discSet = true → s.flags.discSet = true ∨ ∃ d, c.disc = some d)) := by
  unfold setFromOptions
  split
  · exact ⟨rfl, fun h => Or.inl h⟩
  · have h1 := readCommandLine_frame s c
    have h2 := readCommandLine_discSet s c
    refine Ends.bind (P := fun s' => Frame s s' ∧
      (s'.flags.discSet = true → s.flags.discSet = true ∨ ∃ d, c.disc = some d)) ?_ ?_ ?_
    · cases hr : readCommandLine s c with
      | ok s' => rw [hr] at h1 h2; exact ⟨h1, h2⟩
      | err s' => rw [hr] at h1 h2; exact ⟨h1, h2⟩
      | ub => trivial
    · intro s' h; exact ⟨h.1.2, h.2⟩
    · intro s1 hs1
      split
      · trivial
      · split
        · exact ⟨hs1.1.2, hs1.2⟩
        · refine Ends.bind (chooseDm_frame _ e) ?_ ?_
          · intro s' h
            exact ⟨h.1.2.trans hs1.1.2, fun hd => hs1.2 (by rw [← h.2] at *; exact hd)⟩
          · intro s' h
            exact ⟨h.1.2.trans hs1.1.2, fun hd => hs1.2 (by rw [← h.2] at *; exact hd)⟩

theorem setFromOptions_err_matprop {s s' : State} {c : CmdLine} {e : OptEnv}
    (h : setFromOptions s c e = .err s') : s'.matprop = s.matprop := by
  unfold setFromOptions at h
  split at h
  · cases h; rfl
  · have h1 := readCommandLine_frame s c
    cases hr : readCommandLine s c with
    | err s1 => rw [hr] at h h1; cases h; exact h1.1
    | ub => rw [hr] at h; cases h
    | ok s1 =>
      rw [hr] at h h1
      simp only [Res.bind] at h
      split at h
      · cases h
      · split at h
        · cases h; exact h1.1
        · rename_i fam _ _
          have h2 := chooseDm_frame
            { s1 with
              context := some fam
              lostContext := s1.lostContext + (if s1.context.isSome then 1 else 0)
              flags := { s1.flags with optionsSet := true } } e
          split at h
          · cases h
          · rename_i s2 heq
            rw [heq] at h2
            cases h
            exact h2.1.1.trans h1.1
          · cases h

theorem setup_ends (s : State) (e : SetupEnv) :
    Ends (setup s e) (fun s' =>
      s'.matprop = s.matprop ∧ s'.flags.discSet = s.flags.discSet ∧ s'.opts = s.opts) := by
  unfold setup
  split
  · exact ⟨rfl, rfl, rfl⟩
  · split
    · exact ⟨rfl, rfl, rfl⟩
    · dsimp only
      split
      · trivial
      · split
        · trivial
        · split
          · trivial
          · split
            · exact ⟨rfl, rfl, rfl⟩
            · split <;> exact ⟨rfl, rfl, rfl⟩

theorem setup_err_flag {s s' : State} {e : SetupEnv} (h : setup s e = .err s') :
    s'.flags = s.flags := by
  unfold setup at h
  split at h
  · cases h; rfl
  · split at h
    · cases h; rfl
    · dsimp only at h
      split at h
      · cases h
      · split at h
        · cases h
        · split at h
          · cases h
          · split at h
            · cases h; rfl
            · split at h <;> cases h <;> rfl

theorem setup_ok_needs {s s' : State} {e : SetupEnv} (h : setup s e = .ok s') :
    s.flags.discSet = true ∧ s.flags.optionsSet = true ∧ s.matprop = true := by
  unfold setup at h
  split at h
  · cases h
  · split at h
    · cases h
    · dsimp only at h
      split at h
      · cases h
      · split at h
        · cases h
        · split at h
          · cases h
          · rename_i h1 h2 _ _ _ _ h3
            refine ⟨by simpa using h1, by simpa using h2, ?_⟩
            by_cases hm : s.matprop = true
            · exact hm
            · exact absurd (Or.inr (Or.inl (by simpa using hm))) h3

/-- Every call other than the four that configure the object leaves everything but
`vectors` alone. -/
theorem other_step (s : State) (c : Call)
    (h : match c with
      | .setMode _ | .setDisc _ | .setDMConstructor _ | .setWaterDensityType _
      | .setFromOptions _ _ | .setup _ => False
      | _ => True) :
    Ends (step s c) (fun s' => s' = { s with vectors := s'.vectors }) := by
  have hc : Ends (TDy.createDiagnosticVector s) (fun s' => s' = s) := by
    unfold TDy.createDiagnosticVector
    repeat' split
    all_goals first | trivial | rfl
  cases c <;> try exact absurd h id
  case getLiquidSaturation =>
    simp only [step, getLiquidSaturation]
    refine Ends.bind hc ?_ ?_
    · rintro s' rfl; rfl
    · rintro s' rfl
      repeat' split
      all_goals first | trivial | rfl
  all_goals
    simp only [step, createVectors, setInitialCondition, TDy.updateDiagnostics,
      TDy.createDiagnosticVector, createPrognosticVector, createMatrix,
      getLiquidPressure]
    repeat' split
    all_goals first | trivial | rfl

/-- The invariant behind C01. -/
structure Inv (h : Spec.History) (s : State) : Prop where
  options : s.matprop = true → Spec.OptionsSucceeded h
  disc : s.flags.discSet = true → Spec.DiscretizationChosen h
  setup : s.flags.setupFinished = true → Spec.SetupSucceeded h

theorem OptionsSucceeded.append {h k : Spec.History} (x : Spec.OptionsSucceeded h) :
    Spec.OptionsSucceeded (h ++ k) := by
  obtain ⟨c, e, hm⟩ := x
  exact ⟨c, e, List.mem_append_left _ hm⟩

theorem DiscretizationChosen.append {h k : Spec.History} (x : Spec.DiscretizationChosen h) :
    Spec.DiscretizationChosen (h ++ k) := by
  rcases x with ⟨d, hm⟩ | ⟨c, e, st, d, hm, hc⟩
  · exact Or.inl ⟨d, List.mem_append_left _ hm⟩
  · exact Or.inr ⟨c, e, st, d, List.mem_append_left _ hm, hc⟩

theorem SetupSucceeded.append {h k : Spec.History} (x : Spec.SetupSucceeded h) :
    Spec.SetupSucceeded (h ++ k) := by
  obtain ⟨e, hm⟩ := x
  exact ⟨e, List.mem_append_left _ hm⟩

/-- From a frame, the invariant survives one more call. -/
theorem Inv.frame {h k : Spec.History} {s s' : State} (i : Inv h s)
    (h1 : s'.matprop = s.matprop) (h2 : s'.flags.discSet = s.flags.discSet)
    (h3 : s'.flags.setupFinished = s.flags.setupFinished) : Inv (h ++ k) s' :=
  ⟨fun x => OptionsSucceeded.append (i.1 (h1 ▸ x)),
   fun x => DiscretizationChosen.append (i.2 (h2 ▸ x)),
   fun x => SetupSucceeded.append (i.3 (h3 ▸ x))⟩

theorem Ends.of_ok {r : Res State} {P : State → Prop} {s : State} (h : Ends r P)
    (hr : r = .ok s) : P s := by subst hr; exact h

theorem Ends.of_err {r : Res State} {P : State → Prop} {s : State} (h : Ends r P)
    (hr : r = .err s) : P s := by subst hr; exact h

theorem mem_last {α : Type} (l : List α) (a : α) : a ∈ l ++ [a] := by simp

theorem inv_of_reaches {h : Spec.History} {s : State} (r : Reaches State.create h s) :
    Inv h s := by
  induction r with
  | nil => exact ⟨fun h => (by cases h), fun h => (by cases h), fun h => (by cases h)⟩
  | @ok s' s'' h c hr hstep i =>
    cases c with
    | setMode m =>
      have a := (setMode_frame s' m).of_ok hstep
      exact i.frame a.1 ((setMode_discSet s' m).of_ok hstep) a.2
    | setDisc d =>
      have a := (setDisc_frame s' d).of_ok hstep
      exact ⟨fun x => OptionsSucceeded.append (i.1 (a.1 ▸ x)),
        fun _ => Or.inl ⟨d, mem_last _ _⟩,
        fun x => SetupSucceeded.append (i.3 (a.2 ▸ x))⟩
    | setDMConstructor n =>
      simp only [step, setDMConstructor] at hstep
      split at hstep
      · cases hstep
      · split at hstep
        · cases hstep
        · cases hstep; exact i.frame rfl rfl rfl
    | setWaterDensityType t => cases hstep; exact i.frame rfl rfl rfl
    | setFromOptions c e =>
      have a := (setFromOptions_ends s' c e).of_ok hstep
      refine ⟨fun _ => ⟨c, e, mem_last _ _⟩, ?_, fun x => SetupSucceeded.append (i.3 (a.1 ▸ x))⟩
      intro hd
      rcases a.2 hd with hd | ⟨d, hd⟩
      · exact DiscretizationChosen.append (i.2 hd)
      · exact Or.inr ⟨c, e, _, d, mem_last _ _, hd⟩
    | setup e =>
      have a := (setup_ends s' e).of_ok hstep
      exact ⟨fun x => OptionsSucceeded.append (i.1 (a.1 ▸ x)),
        fun x => DiscretizationChosen.append (i.2 (a.2.1 ▸ x)),
        fun _ => ⟨e, mem_last _ _⟩⟩
    | createVectors | setInitialCondition | updateDiagnostics | createDiagnosticVector
    | createPrognosticVector | createMatrix | getLiquidSaturation | getLiquidPressure =>
      have a := (other_step s' _ trivial).of_ok hstep
      rw [a]; exact i.frame rfl rfl rfl
  | @err s' s'' h c hr hstep i =>
    cases c with
    | setMode m =>
      have a := (setMode_frame s' m).of_err hstep
      exact i.frame a.1 ((setMode_discSet s' m).of_err hstep) a.2
    | setDisc d =>
      have : s'' = s' := by
        simp only [step, setDisc] at hstep
        split at hstep
        · cases hstep; rfl
        · split at hstep <;> cases hstep; rfl
      subst this
      exact i.frame rfl rfl rfl
    | setDMConstructor n =>
      simp only [step, setDMConstructor] at hstep
      split at hstep
      · cases hstep; exact i.frame rfl rfl rfl
      · split at hstep
        · cases hstep; exact i.frame rfl rfl rfl
        · cases hstep
    | setWaterDensityType t => cases hstep
    | setFromOptions c e =>
      have a := (setFromOptions_ends s' c e).of_err hstep
      refine ⟨fun x => OptionsSucceeded.append (i.1 (setFromOptions_err_matprop hstep ▸ x)), ?_,
        fun x => SetupSucceeded.append (i.3 (a.1 ▸ x))⟩
      intro hd
      rcases a.2 hd with hd | ⟨d, hd⟩
      · exact DiscretizationChosen.append (i.2 hd)
      · exact Or.inr ⟨c, e, _, d, mem_last _ _, hd⟩
    | setup e =>
      have a := (setup_ends s' e).of_err hstep
      exact i.frame a.1 a.2.1 (by rw [setup_err_flag hstep])
    | createVectors | setInitialCondition | updateDiagnostics | createDiagnosticVector
    | createPrognosticVector | createMatrix | getLiquidSaturation | getLiquidPressure =>
      have a := (other_step s' _ trivial).of_err hstep
      rw [a]; exact i.frame rfl rfl rfl

/-! ### Facts about flags along a history -/

theorem setDisc_modeSet (s : State) (d : Disc) :
    Ends (setDisc s d) (fun s' => s.flags.modeSet = true → s'.flags.modeSet = true) := by
  unfold setDisc
  split
  · exact id
  · split <;> exact id

theorem setMode_modeSet (s : State) (m : Mode) :
    Ends (setMode s m) (fun s' => s'.flags.modeSet = true) := by
  unfold setMode
  dsimp only
  split
  · exact (setDisc_modeSet _ _).mono fun s' h => h rfl
  · rfl

/-- Flags that, once set, stay set. -/
structure Grows (s s' : State) : Prop where
  modeSet : s.flags.modeSet = true → s'.flags.modeSet = true
  discSet : s.flags.discSet = true → s'.flags.discSet = true
  setupFinished : s.flags.setupFinished = true → s'.flags.setupFinished = true

theorem Grows.trans {a b c : State} (h : Grows a b) (k : Grows b c) : Grows a c :=
  ⟨k.1 ∘ h.1, k.2 ∘ h.2, k.3 ∘ h.3⟩

theorem Grows.rfl' (a : State) : Grows a a := ⟨id, id, id⟩

theorem setDisc_grows (s : State) (d : Disc) : Ends (setDisc s d) (Grows s) := by
  unfold setDisc
  split
  · exact Grows.rfl' s
  · split
    · exact Grows.rfl' s
    · exact ⟨id, fun _ => rfl, id⟩

theorem setMode_grows (s : State) (m : Mode) : Ends (setMode s m) (Grows s) := by
  unfold setMode
  dsimp only
  split
  · exact (setDisc_grows _ _).mono fun s' h => ⟨fun _ => h.1 rfl, h.2, h.3⟩
  · exact ⟨fun _ => rfl, id, id⟩

theorem readCommandLine_grows (s : State) (c : CmdLine) :
    Ends (readCommandLine s c) (Grows s) := by
  unfold readCommandLine
  split
  · exact Grows.rfl' s
  · dsimp only
    refine Ends.bindIgnore (P := Grows s) ?_ ?_
    · split
      · exact (setMode_grows _ _).mono fun s' h => ⟨h.1, h.2, h.3⟩
      · exact ⟨id, id, id⟩
    · intro s1 h1
      refine Ends.bindIgnore (P := Grows s) ?_ ?_
      · split
        · exact (setDisc_grows _ _).mono fun s' h => h1.trans h
        · exact h1
      · intro s2 h2
        split <;> exact ⟨h2.1, h2.2, h2.3⟩

theorem chooseDm_flags (s : State) (e : OptEnv) :
    Ends (chooseDm s e) (fun s' => s'.flags = s.flags ∧ s'.ops = s.ops ∧ s'.opts = s.opts ∧
      s'.context = s.context) := by
  unfold chooseDm
  split
  · split
    · trivial
    · split <;> exact ⟨rfl, rfl, rfl, rfl⟩
  · split
    · exact ⟨rfl, rfl, rfl, rfl⟩
    · dsimp only
      split
      · exact ⟨rfl, rfl, rfl, rfl⟩
      · split
        · trivial
        · exact ⟨rfl, rfl, rfl, rfl⟩

theorem setFromOptions_grows (s : State) (c : CmdLine) (e : OptEnv) :
    Ends (setFromOptions s c e) (Grows s) := by
  unfold setFromOptions
  split
  · exact Grows.rfl' s
  · refine Ends.bind (readCommandLine_grows s c) (fun _ h => h) ?_
    intro s1 h1
    split
    · trivial
    · split
      · exact h1
      · refine Ends.bind (chooseDm_flags _ e) ?_ ?_
        · intro s2 h2
          exact ⟨fun h => by rw [h2.1]; exact h1.1 h, fun h => by rw [h2.1]; exact h1.2 h,
            fun h => by rw [h2.1]; exact h1.3 h⟩
        · intro s2 h2
          exact ⟨fun h => by simp only [h2.1]; exact h1.1 h,
            fun h => by simp only [h2.1]; exact h1.2 h,
            fun h => by simp only [h2.1]; exact h1.3 h⟩

theorem setup_grows (s : State) (e : SetupEnv) : Ends (setup s e) (Grows s) := by
  unfold setup
  split
  · exact Grows.rfl' s
  · split
    · exact Grows.rfl' s
    · dsimp only
      split
      · trivial
      · split
        · trivial
        · split
          · trivial
          · split
            · exact ⟨id, id, id⟩
            · split
              · exact ⟨id, id, id⟩
              · exact ⟨id, id, fun _ => rfl⟩

theorem step_grows (s : State) (c : Call) : Ends (step s c) (Grows s) := by
  cases c with
  | setMode m => exact setMode_grows s m
  | setDisc d => exact setDisc_grows s d
  | setDMConstructor n =>
    simp only [step, setDMConstructor]
    split
    · exact Grows.rfl' s
    · split <;> exact ⟨id, id, id⟩
  | setWaterDensityType t => exact ⟨id, id, id⟩
  | setFromOptions c e => exact setFromOptions_grows s c e
  | setup e => exact setup_grows s e
  | createVectors | setInitialCondition | updateDiagnostics | createDiagnosticVector
  | createPrognosticVector | createMatrix | getLiquidSaturation | getLiquidPressure =>
    refine (other_step s _ trivial).mono fun s' h => ?_
    rw [h]; exact ⟨id, id, id⟩

theorem modeSet_of_history {h : Spec.History} {s : State} {m : Mode}
    (r : Reaches State.create h s) (hm : (Call.setMode m, Status.success) ∈ h) :
    s.flags.modeSet = true := by
  induction r with
  | nil => cases hm
  | @ok s' s'' h c hr hstep ih =>
    rcases List.mem_append.1 hm with hm | hm
    · exact ((step_grows s' c).of_ok hstep).1 (ih hm)
    · simp only [List.mem_singleton, Prod.mk.injEq, and_true] at hm
      subst hm
      exact (setMode_modeSet s' m).of_ok hstep
  | @err s' s'' h c hr hstep ih =>
    rcases List.mem_append.1 hm with hm | hm
    · exact ((step_grows s' c).of_err hstep).1 (ih hm)
    · simp at hm

theorem discSet_of_history {h : Spec.History} {s : State} {d : Disc}
    (r : Reaches State.create h s) (hm : (Call.setDisc d, Status.success) ∈ h) :
    s.flags.discSet = true := by
  induction r with
  | nil => cases hm
  | @ok s' s'' h c hr hstep ih =>
    rcases List.mem_append.1 hm with hm | hm
    · exact ((step_grows s' c).of_ok hstep).2 (ih hm)
    · simp only [List.mem_singleton, Prod.mk.injEq, and_true] at hm
      subst hm
      simp only [step, setDisc] at hstep
      split at hstep
      · cases hstep
      · split at hstep <;> cases hstep; rfl
  | @err s' s'' h c hr hstep ih =>
    rcases List.mem_append.1 hm with hm | hm
    · exact ((step_grows s' c).of_err hstep).2 (ih hm)
    · simp at hm

theorem setup_ok_flag {s s' : State} {e : SetupEnv} (h : setup s e = .ok s') :
    s'.flags.setupFinished = true := by
  unfold setup at h
  split at h
  · cases h
  · split at h
    · cases h
    · dsimp only at h
      split at h
      · cases h
      · split at h
        · cases h
        · split at h
          · cases h
          · split at h
            · cases h
            · split at h <;> cases h; rfl

theorem setupFinished_of_history {h : Spec.History} {s : State}
    (r : Reaches State.create h s) (hm : Spec.SetupSucceeded h) :
    s.flags.setupFinished = true := by
  obtain ⟨e, hm⟩ := hm
  induction r with
  | nil => cases hm
  | @ok s' s'' h c hr hstep ih =>
    rcases List.mem_append.1 hm with hm | hm
    · exact ((step_grows s' c).of_ok hstep).3 (ih hm)
    · simp only [List.mem_singleton, Prod.mk.injEq, and_true] at hm
      subst hm
      exact setup_ok_flag hstep
  | @err s' s'' h c hr hstep ih =>
    rcases List.mem_append.1 hm with hm | hm
    · exact ((step_grows s' c).of_err hstep).3 (ih hm)
    · simp at hm

/-! ### The installed solver -/

theorem installOps_matches {old ops : Ops} {m : Mode} {d : Disc}
    (h : installOps old m d = some ops) :
    ∃ f, Spec.solver m d = some f ∧ ops.create = some f.fam ∧ ops.destroy = some f.fam ∧
      ops.setFromOptions = some f.fam ∧ ops.setup = some f ∧ ops.setDmFields = some f ∧
      (∀ g, ops.updateState = some g → g.fam = f.fam) ∧
      (∀ g, ops.updateDiagnostics = some g → g = f.fam) := by
  cases m <;> cases d <;> simp only [installOps, Option.some.injEq, reduceCtorEq] at h <;>
    subst h <;> exact ⟨_, rfl, rfl, rfl, rfl, rfl, rfl, by simp, by simp⟩

theorem setDisc_matches {s s' : State} {d : Disc} (h : setDisc s d = .ok s') :
    Spec.SolverMatches s' ∧ s'.opts.disc = d := by
  unfold setDisc at h
  split at h
  · cases h
  · split at h
    · cases h
    · rename_i ops heq
      cases h
      exact ⟨installOps_matches heq, rfl⟩

theorem setDisc_err_same {s s' : State} {d : Disc} (h : setDisc s d = .err s') : s' = s := by
  unfold setDisc at h
  split at h
  · cases h; rfl
  · split at h <;> cases h; rfl

theorem setMode_matches {s s' : State} {m : Mode} (h : setMode s m = .ok s')
    (hd : s.flags.discSet = true) : Spec.SolverMatches s' := by
  unfold setMode at h
  simp only [hd, if_true] at h
  exact (setDisc_matches h).1

theorem readValues_mode (o : Options) (c : CmdLine) :
    (readValues o c).mode = o.mode ∧ (readValues o c).disc = o.disc := by
  exact ⟨rfl, rfl⟩

/-- "if a discretization is recorded then the solver matches" -/
def MatchInv (s : State) : Prop := s.flags.discSet = true → Spec.SolverMatches s

theorem setDisc_matchInv {s : State} {d : Disc} (h : MatchInv s) :
    Ends (setDisc s d) MatchInv := by
  cases hr : setDisc s d with
  | ok s' => exact fun _ => (setDisc_matches hr).1
  | err s' => rw [setDisc_err_same hr]; exact h
  | ub => trivial

/-- A state whose mode, discretization, table and discretization flag are those of `s`. -/
theorem MatchInv.congr {s s' : State} (h : MatchInv s) (h1 : s'.ops = s.ops)
    (h2 : s'.opts.mode = s.opts.mode) (h3 : s'.opts.disc = s.opts.disc)
    (h4 : s'.flags.discSet = s.flags.discSet) : MatchInv s' := by
  intro hd
  have := h (h4 ▸ hd)
  unfold Spec.SolverMatches at *
  rw [h1, h2, h3]; exact this

theorem readCommandLine_matchInv {s : State} {c : CmdLine} (h : MatchInv s)
    (hc : c.mode = none) : Ends (readCommandLine s c) MatchInv := by
  unfold readCommandLine
  split
  · exact h
  · have hv := readValues_mode s.opts c
    simp only [hc, Option.getD_none, hv.1, ne_eq, not_true_eq_false, if_false]
    simp only [Res.bindIgnore.eq_1]
    refine Ends.bindIgnore (P := MatchInv) ?_ ?_
    · have h' : MatchInv { s with opts := readValues s.opts c, conditions := true } :=
        h.congr rfl hv.1 hv.2 rfl
      split
      · exact setDisc_matchInv h'
      · exact h'
    · intro s2 h2
      split <;> exact h2.congr rfl rfl rfl rfl

theorem setFromOptions_matchInv {s : State} {c : CmdLine} {e : OptEnv} (h : MatchInv s)
    (hc : c.mode = none) : Ends (setFromOptions s c e) MatchInv := by
  unfold setFromOptions
  split
  · exact h
  · refine Ends.bind (readCommandLine_matchInv h hc) (fun _ h => h) ?_
    intro s1 h1
    split
    · trivial
    · split
      · exact h1
      · rename_i fam _ _
        refine Ends.bind (chooseDm_flags _ e) ?_ ?_
        · intro s2 h2
          exact h1.congr h2.2.1 (by rw [h2.2.2.1]) (by rw [h2.2.2.1]) (by rw [h2.1])
        · intro s2 h2
          exact h1.congr h2.2.1 (by simp only [h2.2.2.1]) (by simp only [h2.2.2.1])
            (by simp only [h2.1])

theorem setupDiagnostics_matches {s : State} (h : Spec.SolverMatches s) :
    Spec.SolverMatches (setupDiagnostics s) := by
  obtain ⟨f, h1, h2, h3, h4, h5, h6, h7, h8⟩ := h
  refine ⟨f, h1, h2, h3, h4, h5, h6, h7, ?_⟩
  intro g hg
  simp only [setupDiagnostics] at hg
  split at hg
  · cases hg
  · exact h8 g hg

theorem setup_matchInv {s : State} {e : SetupEnv} (h : MatchInv s) :
    Ends (setup s e) MatchInv := by
  unfold setup
  split
  · exact h
  · rename_i hd
    have hm : Spec.SolverMatches s := h (by simpa using hd)
    split
    · exact h
    · dsimp only
      split
      · trivial
      · split
        · trivial
        · split
          · trivial
          · split
            · exact fun _ => hm
            · have := setupDiagnostics_matches
                (s := { s with eosRho := s.opts.rhoType, eosMu := s.opts.muType }) hm
              split <;> exact fun _ => this

theorem matches_inv {h : Spec.History} {s : State} (r : Reaches State.create h s)
    (hmode : ∀ m st, (Call.setMode m, st) ∈ h → st = .success)
    (hcmd : ∀ c e st, (Call.setFromOptions c e, st) ∈ h → c.mode = none) : MatchInv s := by
  induction r with
  | nil => intro hd; cases hd
  | @ok s' s'' h c hr hstep ih =>
    have i := ih (fun m st hm => hmode m st (List.mem_append_left _ hm))
      (fun c e st hm => hcmd c e st (List.mem_append_left _ hm))
    cases c with
    | setMode m =>
      by_cases hd : s'.flags.discSet = true
      · exact fun _ => setMode_matches hstep hd
      · intro hd'
        have := (setMode_discSet s' m).of_ok hstep
        rw [this] at hd'; exact absurd hd' hd
    | setDisc d => exact (setDisc_matchInv i).of_ok hstep
    | setDMConstructor n =>
      simp only [step, setDMConstructor] at hstep
      split at hstep
      · cases hstep
      · split at hstep
        · cases hstep
        · cases hstep; exact i.congr rfl rfl rfl rfl
    | setWaterDensityType t => cases hstep; exact i.congr rfl rfl rfl rfl
    | setFromOptions c e =>
      exact (setFromOptions_matchInv i (hcmd c e _ (mem_last _ _))).of_ok hstep
    | setup e => exact (setup_matchInv i).of_ok hstep
    | createVectors | setInitialCondition | updateDiagnostics | createDiagnosticVector
    | createPrognosticVector | createMatrix | getLiquidSaturation | getLiquidPressure =>
      have a := (other_step s' _ trivial).of_ok hstep
      rw [a]; exact i.congr rfl rfl rfl rfl
  | @err s' s'' h c hr hstep ih =>
    have i := ih (fun m st hm => hmode m st (List.mem_append_left _ hm))
      (fun c e st hm => hcmd c e st (List.mem_append_left _ hm))
    cases c with
    | setMode m => exact absurd (hmode m _ (mem_last _ _)) (by decide)
    | setDisc d => exact (setDisc_matchInv i).of_err hstep
    | setDMConstructor n =>
      simp only [step, setDMConstructor] at hstep
      split at hstep
      · cases hstep; exact i
      · split at hstep
        · cases hstep; exact i
        · cases hstep
    | setWaterDensityType t => cases hstep
    | setFromOptions c e =>
      exact (setFromOptions_matchInv i (hcmd c e _ (mem_last _ _))).of_err hstep
    | setup e => exact (setup_matchInv i).of_err hstep
    | createVectors | setInitialCondition | updateDiagnostics | createDiagnosticVector
    | createPrognosticVector | createMatrix | getLiquidSaturation | getLiquidPressure =>
      have a := (other_step s' _ trivial).of_err hstep
      rw [a]; exact i.congr rfl rfl rfl rfl

/-! ### After setup -/

theorem setup_frozen (s : State) (e : SetupEnv) :
    Ends (setup s e) (fun s' => s'.opts = s.opts ∧ s'.context = s.context ∧ s'.dm = s.dm) := by
  unfold setup
  split
  · exact ⟨rfl, rfl, rfl⟩
  · split
    · exact ⟨rfl, rfl, rfl⟩
    · dsimp only
      split
      · trivial
      · split
        · trivial
        · split
          · trivial
          · split
            · exact ⟨rfl, rfl, rfl⟩
            · split <;> exact ⟨rfl, rfl, rfl⟩

theorem frozen_step {s : State} {c : Call} (hf : s.flags.setupFinished = true)
    (hc : ¬ Spec.Reconfigures c) :
    Ends (step s c) (fun s' => s'.opts = s.opts ∧ s'.context = s.context ∧ s'.dm = s.dm) := by
  cases c with
  | setMode m => exact absurd trivial hc
  | setDisc d => exact absurd trivial hc
  | setWaterDensityType t => exact absurd trivial hc
  | setDMConstructor n =>
    simp only [step, setDMConstructor]
    split
    · exact ⟨rfl, rfl, rfl⟩
    · split <;> exact ⟨rfl, rfl, rfl⟩
  | setFromOptions c e =>
    simp only [step, setFromOptions, hf, if_true]
    exact ⟨rfl, rfl, rfl⟩
  | setup e => exact setup_frozen s e
  | createVectors | setInitialCondition | updateDiagnostics | createDiagnosticVector
  | createPrognosticVector | createMatrix | getLiquidSaturation | getLiquidPressure =>
    refine (other_step s _ trivial).mono fun s' h => ?_
    rw [h]; exact ⟨rfl, rfl, rfl⟩

theorem frozen_of_reaches {s s' : State} {k : Spec.History}
    (hf : s.flags.setupFinished = true) (r : Reaches s k s')
    (hno : ∀ c st, (c, st) ∈ k → ¬ Spec.Reconfigures c) :
    s'.opts = s.opts ∧ s'.context = s.context ∧ s'.dm = s.dm := by
  suffices s'.flags.setupFinished = true ∧
      (s'.opts = s.opts ∧ s'.context = s.context ∧ s'.dm = s.dm) from this.2
  induction r with
  | nil => exact ⟨hf, rfl, rfl, rfl⟩
  | @ok s1 s2 h c hr hstep ih =>
    have i := ih (fun c st hm => hno c st (List.mem_append_left _ hm))
    have a := (frozen_step i.1 (hno c _ (mem_last _ _))).of_ok hstep
    exact ⟨((step_grows s1 c).of_ok hstep).3 i.1, a.1.trans i.2.1, a.2.1.trans i.2.2.1,
      a.2.2.trans i.2.2.2⟩
  | @err s1 s2 h c hr hstep ih =>
    have i := ih (fun c st hm => hno c st (List.mem_append_left _ hm))
    have a := (frozen_step i.1 (hno c _ (mem_last _ _))).of_err hstep
    exact ⟨((step_grows s1 c).of_err hstep).3 i.1, a.1.trans i.2.1, a.2.1.trans i.2.2.1,
      a.2.2.trans i.2.2.2⟩

theorem destroy_of_setFromOptions {s s' : State} {c : CmdLine} {e : OptEnv}
    (hm : Spec.SolverMatches s) (hc : c.mode = none)
    (hs : step s (.setFromOptions c e) = .ok s') : destroyDefined s' = true := by
  simp only [step, setFromOptions] at hs
  split at hs
  · cases hs
  · -- the table after reading the command line still matches
    have key : Ends (readCommandLine s c) Spec.SolverMatches := by
      unfold readCommandLine
      split
      · exact hm
      · have hv := readValues_mode s.opts c
        simp only [hc, Option.getD_none, hv.1, ne_eq, not_true_eq_false, if_false]
        have h' : Spec.SolverMatches
            { s with opts := readValues s.opts c, conditions := true } := by
          unfold Spec.SolverMatches at *
          simp only [hv.1, hv.2]; exact hm
        simp only [Res.bindIgnore.eq_1]
        refine Ends.bindIgnore (P := Spec.SolverMatches) ?_ ?_
        · split
          · cases hr : setDisc { s with opts := readValues s.opts c, conditions := true }
                (c.disc.getD s.opts.disc) with
            | ok s1 => exact (setDisc_matches hr).1
            | err s1 => rw [setDisc_err_same hr]; exact h'
            | ub => trivial
          · exact h'
        · intro s2 h2
          split <;> exact h2
    cases hr : readCommandLine s c with
    | err s1 => rw [hr] at hs; cases hs
    | ub => rw [hr] at hs; cases hs
    | ok s1 =>
      rw [hr] at hs key
      obtain ⟨f, _, h1, h2, _⟩ := (key : Spec.SolverMatches s1)
      simp only [Res.bind, h1] at hs
      split at hs
      · cases hs
      · have a := chooseDm_flags
          { s1 with
            context := some f.fam
            lostContext := s1.lostContext + (if s1.context.isSome then 1 else 0)
            flags := { s1.flags with optionsSet := true } } e
        split at hs
        · rename_i s2 heq
          rw [heq] at a
          cases hs
          simp only [destroyDefined]
          have a2 : s2.ops = s1.ops := a.2.1
          have a4 : s2.context = some f.fam := a.2.2.2
          rw [a2, h2, a4]
          simp
        · cases hs
        · cases hs

end TDy.Proofs

namespace TDy.Proofs

/-- Runs a concrete history, checking each recorded status. -/
def run : State → Spec.History → Option State
  | s, [] => some s
  | s, (c, st) :: h =>
    match step s c, st with
    | .ok s', .success => run s' h
    | .err s', .failure => run s' h
    | _, _ => none

theorem Reaches.append {a b c : State} {h k : Spec.History} (hr : Reaches a h b)
    (kr : Reaches b k c) : Reaches a (h ++ k) c := by
  induction kr with
  | nil => simpa using hr
  | ok cl _ hs ih => rw [← List.append_assoc]; exact Reaches.ok cl ih hs
  | err cl _ hs ih => rw [← List.append_assoc]; exact Reaches.err cl ih hs

theorem reaches_of_run {h : Spec.History} {s s' : State} (hr : run s h = some s') :
    Reaches s h s' := by
  induction h generalizing s with
  | nil => cases hr; exact Reaches.nil _
  | cons a h ih =>
    obtain ⟨c, st⟩ := a
    simp only [run] at hr
    have hcons : (c, st) :: h = [(c, st)] ++ h := rfl
    rw [hcons]
    split at hr
    · rename_i s1 heq
      exact Reaches.append (Reaches.ok (h := []) c (Reaches.nil s) heq) (ih hr)
    · rename_i s1 heq
      exact Reaches.append (Reaches.err (h := []) c (Reaches.nil s) heq) (ih hr)
    · cases hr

end TDy.Proofs

namespace TDy.Proofs

/-- The settings and boundary values of two option sets agree. -/
structure SameValues (o o' : Options) : Prop where
  real : ∀ k, Spec.setting o' k = Spec.setting o k
  bp : o'.boundaryPressure = o.boundaryPressure
  bv : o'.boundaryVelocity = o.boundaryVelocity
  bt : o'.boundaryTemperature = o.boundaryTemperature
  rho : o'.rhoType = o.rhoType
  mu : o'.muType = o.muType

theorem SameValues.rfl' (o : Options) : SameValues o o := ⟨fun _ => rfl, rfl, rfl, rfl, rfl, rfl⟩

theorem SameValues.trans {a b c : Options} (h : SameValues a b) (k : SameValues b c) :
    SameValues a c :=
  ⟨fun x => (k.1 x).trans (h.1 x), k.2.trans h.2, k.3.trans h.3, k.4.trans h.4, k.5.trans h.5,
   k.6.trans h.6⟩

theorem SameValues.of_eq {o o' : Options} (h : o' = { o with
    mode := o'.mode, disc := o'.disc, initWithRandomField := o'.initWithRandomField,
    initFromFile := o'.initFromFile, readMesh := o'.readMesh,
    readPflotranMesh := o'.readPflotranMesh, outputMesh := o'.outputMesh,
    regressionTesting := o'.regressionTesting }) : SameValues o o' := by
  rw [h]
  exact ⟨fun k => by cases k <;> rfl, rfl, rfl, rfl, rfl, rfl⟩

theorem setDisc_values (s : State) (d : Disc) :
    Ends (setDisc s d) (fun s' => SameValues s.opts s'.opts) := by
  unfold setDisc
  split
  · exact .rfl' _
  · split
    · exact .rfl' _
    · exact .of_eq rfl

theorem setMode_values (s : State) (m : Mode) :
    Ends (setMode s m) (fun s' => SameValues s.opts s'.opts) := by
  unfold setMode
  dsimp only
  split
  · exact (setDisc_values _ _).mono fun s' h => SameValues.trans (.of_eq rfl) h
  · exact .of_eq rfl

theorem readCommandLine_values (s : State) (c : CmdLine) (hf : s.flags.setupFinished = false) :
    Ends (readCommandLine s c) (fun s' => SameValues (readValues s.opts c) s'.opts) := by
  unfold readCommandLine
  simp only [hf, Bool.false_eq_true, if_false]
  refine Ends.bindIgnore (P := fun s' => SameValues (readValues s.opts c) s'.opts) ?_ ?_
  · split
    · exact setMode_values _ _
    · exact .rfl' _
  · intro s1 h1
    refine Ends.bindIgnore (P := fun s' => SameValues (readValues s.opts c) s'.opts) ?_ ?_
    · split
      · exact (setDisc_values _ _).mono fun s' h => h1.trans h
      · exact h1
    · intro s2 h2
      split
      · exact h2.trans (.of_eq rfl)
      · exact h2.trans (.of_eq rfl)

theorem setFromOptions_values {s s' : State} {c : CmdLine} {e : OptEnv}
    (h : setFromOptions s c e = .ok s') : SameValues (readValues s.opts c) s'.opts := by
  unfold setFromOptions at h
  split at h
  · cases h
  · rename_i hf
    have h1 := readCommandLine_values s c (by simpa using hf)
    cases hr : readCommandLine s c with
    | err s1 => rw [hr] at h; cases h
    | ub => rw [hr] at h; cases h
    | ok s1 =>
      rw [hr] at h h1
      simp only [Res.bind] at h
      split at h
      · cases h
      · split at h
        · cases h
        · rename_i fam _ _
          have a := chooseDm_flags
            { s1 with
              context := some fam
              lostContext := s1.lostContext + (if s1.context.isSome then 1 else 0)
              flags := { s1.flags with optionsSet := true } } e
          split at h
          · rename_i s2 heq
            rw [heq] at a
            cases h
            have : s2.opts = s1.opts := a.2.2.1
            simp only [this]; exact h1
          · cases h
          · cases h

end TDy.Proofs
