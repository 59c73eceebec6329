import Verif.Proofs.Lifecycle
import Verif.Model.SolverHooks

/-!
# C01-C04, C30, C31, C78: the life cycle of a dycore object
-/

namespace TDy.Props

open TDy TDy.Spec TDy.Proofs

/-! ## C01 : setup happens only after mode, discretization and options -/

/-- Whatever calls were made before (in any order, with any failures), `TDySetup` succeeds only
if a discretization has been chosen and `TDySetFromOptions` has succeeded. -/
theorem C01_setup_only_after_options (h : History) (s s' : State) (e : SetupEnv)
    (hr : Reaches State.create h s) (hs : step s (.setup e) = .ok s') :
    OptionsSucceeded h ∧ DiscretizationChosen h := by
  have i := inv_of_reaches hr
  have n := setup_ok_needs hs
  exact ⟨i.options n.2.2, i.disc n.1⟩

/-- The calls documented as needing a set-up object succeed only after a successful
`TDySetup`. -/
theorem C01_needs_setup (h : History) (s s' : State) (c : Call) (hc : NeedsSetup c)
    (hr : Reaches State.create h s) (hs : step s c = .ok s') :
    SetupSucceeded h := by
  have i := inv_of_reaches hr
  refine i.setup ?_
  cases c <;> try exact absurd hc id
  all_goals
    simp only [step, TDy.updateDiagnostics, TDy.createDiagnosticVector, createPrognosticVector,
      createMatrix, getLiquidSaturation, getLiquidPressure] at hs
    by_cases hf : s.flags.setupFinished = true
    · exact hf
    · simp only [Bool.not_eq_true] at hf
      simp only [hf, Res.bind, if_true] at hs
      first | (cases hs; done) | (split at hs <;> cases hs)

/-- The documented order of calls works for every supported pair: no error, no undefined
behaviour. -/
theorem C01_documented_order_succeeds (m : Mode) (d : Disc) (hm : Supported m d) :
    ∃ s, Reaches State.create
      [(.setMode m, .success), (.setDisc d, .success), (.setFromOptions {} {}, .success),
       (.setup {}, .success), (.createVectors, .success),
       (.createPrognosticVector, .success)] s := by
  cases m <;> cases d <;> first
    | (exfalso; revert hm; simp [Supported, solver]; done)
    | exact ⟨_, reaches_of_run rfl⟩

theorem step_vectors (s : State) (c : Call) (hc : c ≠ .createVectors) :
    Ends (step s c) fun s' => s'.vectors = s.vectors := by
  have hd : ∀ (s : State) d, Ends (setDisc s d) fun s' => s'.vectors = s.vectors := by
    intro s d
    unfold setDisc
    repeat' split
    all_goals rfl
  have hm : ∀ (s : State) m, Ends (setMode s m) fun s' => s'.vectors = s.vectors := by
    intro s m
    unfold setMode
    dsimp only
    split
    · exact hd _ _
    · rfl
  have hdiag : ∀ s : State, Ends (TDy.createDiagnosticVector s) fun s' => s' = s := by
    intro s
    unfold TDy.createDiagnosticVector
    repeat' split
    all_goals first | trivial | rfl
  cases c with
  | createVectors => exact absurd rfl hc
  | setMode m => exact hm s m
  | setDisc d => exact hd s d
  | setDMConstructor id =>
    simp only [step, setDMConstructor]
    repeat' split
    all_goals rfl
  | setWaterDensityType t => rfl
  | setFromOptions c e =>
    simp only [step, setFromOptions]
    split
    · rfl
    · refine Ends.bind (P := fun s' => s'.vectors = s.vectors) ?_ ?_ ?_
      · unfold readCommandLine
        split
        · rfl
        · dsimp only
          refine Ends.bindIgnore (P := fun s' => s'.vectors = s.vectors) ?_ ?_
          · split
            · exact hm _ _
            · rfl
          · intro s1 h1
            refine Ends.bindIgnore (P := fun s' => s'.vectors = s.vectors) ?_ ?_
            · split
              · exact (hd _ _).mono fun s' h => h.trans h1
              · exact h1
            · intro s2 h2
              split <;> exact h2
      · intro s' h; exact h
      · intro s1 h1
        split
        · trivial
        · split
          · exact h1
          · refine Ends.bind (P := fun s' => s'.vectors = s.vectors) ?_ ?_ ?_
            · unfold chooseDm
              repeat' split
              all_goals first | trivial | exact h1
            · intro s' h; exact h
            · intro s' h; exact h
  | setup e =>
    simp only [step, setup, setupDiagnostics]
    repeat' split
    all_goals first | trivial | rfl
  | getLiquidSaturation =>
    simp only [step, getLiquidSaturation]
    refine Ends.bind (hdiag s) ?_ ?_
    · rintro s' rfl; rfl
    · rintro s' rfl
      repeat' split
      all_goals first | trivial | rfl
  | _ =>
    simp only [step, setInitialCondition, TDy.updateDiagnostics, TDy.createDiagnosticVector,
      createPrognosticVector, createMatrix, getLiquidPressure]
    repeat' split
    all_goals first | trivial | rfl

theorem vectors_of_reaches {h : History} {s : State} (hr : Reaches State.create h s) (hv : s.vectors = true) :
    (Call.createVectors, Status.success) ∈ h := by
  induction hr with
  | nil => cases hv
  | @ok s' s'' h c hr hstep ih =>
    by_cases hc : c = .createVectors
    · subst hc; simp
    · exact List.mem_append_left _ (ih ((step_vectors s' c hc).of_ok hstep ▸ hv))
  | @err s' s'' h c hr hstep ih =>
    by_cases hc : c = .createVectors
    · subst hc
      simp only [step, createVectors] at hstep
      split at hstep
      · cases hstep
      · split at hstep <;> cases hstep
    · exact List.mem_append_left _ (ih ((step_vectors s' c hc).of_err hstep ▸ hv))

/-- Giving an initial condition and reading the pressure succeed only after `TDyCreateVectors` has succeeded. -/
theorem C01_needs_vectors (h : History) (s s' : State) (c : Call)
    (hc : c = .setInitialCondition ∨ c = .getLiquidPressure)
    (hr : Reaches State.create h s) (hs : step s c = .ok s') :
    (Call.createVectors, Status.success) ∈ h := by
  refine vectors_of_reaches hr ?_
  cases hv : s.vectors with
  | true => rfl
  | false =>
    rcases hc with rfl | rfl
    · simp only [step, setInitialCondition, hv, if_true] at hs
      cases hs
    · simp only [step, getLiquidPressure, hv, if_true] at hs
      split at hs
      · cases hs
      · split at hs <;> cases hs

example : ∃ h s s', Reaches State.create h s ∧ step s .setInitialCondition = .ok s' ∧
    ∃ s'', step s' .getLiquidPressure = .ok s'' :=
  ⟨[(.setMode .th, .success), (.setDisc .mpfaO, .success), (.setFromOptions {} {}, .success),
    (.setup {}, .success), (.createVectors, .success)], _, _, reaches_of_run rfl, rfl, _, rfl⟩

/-- `TDySetInitialCondition` is not guarded: it succeeds on an object that was never set up. -/
theorem C01_initial_condition_before_setup :
    ∃ h s, Reaches State.create h s ∧ ¬ SetupSucceeded h ∧
      step s .setInitialCondition = .ok s := by
  refine ⟨[(.setMode .richards, .success), (.setDisc .mpfaO, .success),
    (.setFromOptions {} {}, .success), (.createVectors, .success)], _,
    reaches_of_run rfl, ?_, rfl⟩
  rintro ⟨e, hm⟩
  simp at hm

/-- The options flag is set before the mesh is read: when that fails, a later `TDySetup` is not
refused but runs into undefined behaviour. -/
theorem C01_setup_after_failed_options_is_undefined :
    ∃ h s, Reaches State.create h s ∧ ¬ OptionsSucceeded h ∧ step s (.setup {}) = .ub := by
  refine ⟨[(.setMode .richards, .success), (.setDisc .mpfaO, .success),
    (.setFromOptions { readMesh := true } { failAfterFlag := true }, .failure)], _,
    reaches_of_run rfl, ?_, rfl⟩
  rintro ⟨c, e, hm⟩
  simp at hm

/-- Non-vacuity of C01: a history whose last call is a successful setup. -/
example : ∃ h s s', Reaches State.create h s ∧ step s (.setup {}) = .ok s' :=
  ⟨[(.setMode .th, .success), (.setDisc .mpfaO, .success), (.setFromOptions {} {}, .success)], _,
    _, reaches_of_run rfl, rfl⟩

/-! ## C02 : unsupported pairs are rejected without effect -/

/-- Once a mode has been set, `TDySetDiscretization` succeeds exactly for the discretizations
supported in the current mode. -/
theorem C02_accepts_exactly_supported (h : History) (s : State) (m : Mode) (d : Disc)
    (hr : Reaches State.create h s) (hm : (Call.setMode m, Status.success) ∈ h) :
    (∃ s', step s (.setDisc d) = .ok s') ↔ Supported s.opts.mode d := by
  have hset : s.flags.modeSet = true := modeSet_of_history hr hm
  simp only [step, setDisc, hset, Bool.true_eq_false, if_false]
  cases hmode : s.opts.mode <;> cases d <;> simp [installOps, Supported, solver]

/-- Without a mode, no discretization is accepted. -/
theorem C02_rejects_without_mode (d : Disc) (s : State) (hs : s = State.create) :
    step s (.setDisc d) = .err s := by subst hs; rfl

/-- A rejected `TDySetDiscretization` changes nothing, whatever the state; the call is never
undefined. -/
theorem C02_rejection_has_no_effect (s : State) (d : Disc) :
    (∀ s', step s (.setDisc d) = .err s' → s' = s) ∧ step s (.setDisc d) ≠ .ub := by
  simp only [step, setDisc]
  split
  · exact ⟨by intro s' h; cases h; rfl, by simp⟩
  · split
    · exact ⟨by intro s' h; cases h; rfl, by simp⟩
    · exact ⟨by intro s' h; (cases h), by simp⟩

/-- Non-vacuity of C02: a reachable object that refuses one discretization and accepts
another. -/
example : ∃ h s, Reaches State.create h s ∧ (Call.setMode .th, Status.success) ∈ h ∧
    (∃ s', step s (.setDisc .mpfaO) = .ok s') ∧ step s (.setDisc .wy) = .err s :=
  ⟨[(.setMode .th, .success)], _, reaches_of_run rfl, by simp,
    ⟨_, rfl⟩, rfl⟩

/-! ## C03 : the installed solver matches the reported mode and discretization -/

/-- Any successful `TDySetDiscretization` leaves a matching solver and reports the requested
discretization, whatever went wrong before. -/
theorem C03_discretization_restores (s s' : State) (d : Disc)
    (hs : step s (.setDisc d) = .ok s') : SolverMatches s' ∧ s'.opts.disc = d :=
  setDisc_matches hs

/-- Full statement: after any sequence of `TDySetMode`/`TDySetDiscretization` calls (and
anything else) the installed solver matches.  Proved here for histories in which no mode switch
failed and no mode was given on the command line; what is missing is refuted below. -/
theorem C03_solver_matches_partial (h : History) (s : State)
    (hr : Reaches State.create h s)
    (hmode : ∀ m st, (Call.setMode m, st) ∈ h → st = .success)
    (hcmd : ∀ c e st, (Call.setFromOptions c e, st) ∈ h → c.mode = none)
    (hok : ∃ d, (Call.setDisc d, Status.success) ∈ h) :
    SolverMatches s := by
  have := matches_inv hr hmode hcmd
  obtain ⟨d, hd⟩ := hok
  exact this (discSet_of_history hr hd)

/-- A failed mode switch leaves the object reporting a mode the installed solver does not
solve. -/
theorem C03_failed_mode_switch_mismatch :
    ∃ s, Reaches State.create
      [(.setMode .richards, .success), (.setDisc .fvTpf, .success), (.setMode .th, .failure)] s ∧
      ¬ SolverMatches s := by
  refine ⟨_, reaches_of_run rfl, ?_⟩
  rintro ⟨f, hf, _⟩
  change (none : Option Fn) = some f at hf
  cases hf

/-- The same through the command line, with every call reporting success, through to a
completed setup. -/
theorem C03_command_line_mismatch :
    ∃ c s, Reaches State.create
      [(.setMode .richards, .success), (.setDisc .fvTpf, .success),
       (.setFromOptions c {}, .success), (.setup {}, .success)] s ∧
      s.opts.mode = .th ∧ s.ops.setup = some ⟨.fvtpf, .richards⟩ ∧ ¬ SolverMatches s := by
  refine ⟨{ mode := some .th }, _, reaches_of_run rfl, rfl, rfl, ?_⟩
  rintro ⟨f, hf, _⟩
  change (none : Option Fn) = some f at hf
  cases hf

/-- Switching from Richards to TH keeps the Richards count of unknowns per cell, which is what
the PFLOTRAN mesh reader allocates with; starting directly in TH there is no such routine and
reading a PFLOTRAN mesh is undefined. -/
theorem C03_th_field_count_wrong :
    (∃ s, Reaches State.create
      [(.setMode .richards, .success), (.setDisc .mpfaO, .success), (.setMode .th, .success)] s ∧
      ∃ f g, s.ops.setDmFields = some f ∧ s.ops.getNumDmFields = some g ∧
        numFields f.var = 2 ∧ numFields g.var = 1) ∧
    (∃ s, Reaches State.create [(.setMode .th, .success), (.setDisc .mpfaO, .success)] s ∧
      step s (.setFromOptions { readPflotranMesh := true } {}) = .ub) :=
  ⟨⟨_, reaches_of_run rfl, _, _, rfl, rfl, rfl, rfl⟩,
   ⟨_, reaches_of_run rfl, rfl⟩⟩

/-- Non-vacuity of C03: switching back and forth with every call succeeding. -/
example : ∃ s, Reaches State.create
    [(.setMode .richards, .success), (.setDisc .wy, .success), (.setDisc .mpfaO, .success),
     (.setMode .salinity, .success)] s ∧ SolverMatches s :=
  ⟨_, reaches_of_run rfl,
   ⟨_, rfl, rfl, rfl, rfl, rfl, rfl, by decide, by decide⟩⟩

/-! ## C04 : options are frozen by setup -/

/-- Full statement: after a successful `TDySetup` no later call changes the options.  Proved
here for continuations without `TDySetMode`, `TDySetDiscretization` and
`TDySetWaterDensityType`, which are refuted below. -/
theorem C04_options_frozen_partial (h k : History) (s s' : State)
    (hr : Reaches State.create h s) (hset : SetupSucceeded h)
    (hk : Reaches s k s') (hno : ∀ c st, (c, st) ∈ k → ¬ Reconfigures c) :
    s'.opts = s.opts ∧ s'.context = s.context ∧ s'.dm = s.dm :=
  frozen_of_reaches (setupFinished_of_history hr hset) hk hno

/-- `TDySetFromOptions` is refused after setup and changes nothing, whatever is on the command
line. -/
theorem C04_set_from_options_refused (h : History) (s : State) (c : CmdLine) (e : OptEnv)
    (hr : Reaches State.create h s) (hset : SetupSucceeded h) :
    step s (.setFromOptions c e) = .err s := by
  have := setupFinished_of_history hr hset
  simp [step, setFromOptions, this]

/-- After setup, `TDySetDiscretization` still succeeds; it changes the options and the next
diagnostics update treats the two-point context as a multi-point one: undefined behaviour. -/
theorem C04_discretization_after_setup :
    ∃ s s', Reaches State.create
      [(.setMode .richards, .success), (.setDisc .mpfaO, .success),
       (.setFromOptions {} {}, .success), (.setup {}, .success)] s ∧
      step s (.setDisc .fvTpf) = .ok s' ∧ s'.opts ≠ s.opts ∧
      step s' .updateDiagnostics = .ub :=
  ⟨_, _, reaches_of_run rfl, rfl,
   by decide, rfl⟩

/-- After setup, `TDySetWaterDensityType` succeeds, changes the options, and has no effect on
the equation of state in use. -/
theorem C04_density_after_setup_ignored :
    ∃ s s', Reaches State.create
      [(.setMode .richards, .success), (.setDisc .mpfaO, .success),
       (.setFromOptions {} {}, .success), (.setup {}, .success)] s ∧
      step s (.setWaterDensityType .exponential) = .ok s' ∧
      s'.opts.rhoType = .exponential ∧ s'.eosRho = .constant :=
  ⟨_, _, reaches_of_run rfl, rfl, rfl, rfl⟩

/-- Non-vacuity of C04: a set-up object with a continuation. -/
example : ∃ s s', Reaches State.create
    [(.setMode .richards, .success), (.setDisc .mpfaO, .success),
     (.setFromOptions {} {}, .success), (.setup {}, .success)] s ∧
    Reaches s [(.createVectors, .success), (.updateDiagnostics, .success),
      (.setFromOptions { mode := some .th } {}, .failure)] s' :=
  ⟨_, _, reaches_of_run rfl,
   reaches_of_run rfl⟩

/-! ## C30 : each command-line option changes its own setting -/

/-- Full statement: after a successful `TDySetFromOptions`, each setting has the value given for
its own option, or its old value if that option was not given.  Proved here when
`-tdy_thermal_conductivity` is absent. -/
theorem C30_option_sets_its_own_setting_partial (s s' : State) (c : CmdLine) (e : OptEnv)
    (hs : step s (.setFromOptions c e) = .ok s')
    (ht : c.real .thermalConductivity = none) (k : RealKey) :
    setting s'.opts k = (c.real k).getD (setting s.opts k) := by
  rw [(setFromOptions_values hs).real k]
  cases k <;> simp [setting, readValues, ht]

/-- The settings other than porosity and thermal conductivity are right whatever is given. -/
theorem C30_other_settings (s s' : State) (c : CmdLine) (e : OptEnv)
    (hs : step s (.setFromOptions c e) = .ok s') (k : RealKey)
    (h1 : k ≠ .porosity) (h2 : k ≠ .thermalConductivity) :
    setting s'.opts k = (c.real k).getD (setting s.opts k) := by
  rw [(setFromOptions_values hs).real k]
  cases k <;> simp_all [setting, readValues]

/-- `-tdy_thermal_conductivity` sets the porosity instead, for every value and every starting
point: the conductivity never changes and the porosity is overwritten even when it was given
too. -/
theorem C30_thermal_conductivity_sets_porosity (s s' : State) (c : CmdLine) (e : OptEnv)
    (hs : step s (.setFromOptions c e) = .ok s') (v : Rat)
    (hv : c.real .thermalConductivity = some v) :
    setting s'.opts .porosity = v ∧
    setting s'.opts .thermalConductivity = setting s.opts .thermalConductivity := by
  rw [(setFromOptions_values hs).real, (setFromOptions_values hs).real]
  simp [setting, readValues, hv]

/-- Boundary values: a named function takes precedence, otherwise the value given is stored;
the water models are those given. -/
theorem C30_boundary_values (s s' : State) (c : CmdLine) (e : OptEnv)
    (hs : step s (.setFromOptions c e) = .ok s') :
    s'.opts.boundaryPressure =
      (if c.pressureFn then s.opts.boundaryPressure
       else c.pressureValue.getD s.opts.boundaryPressure) ∧
    s'.opts.boundaryVelocity =
      (if c.velocityFn then s.opts.boundaryVelocity
       else c.velocityValue.getD s.opts.boundaryVelocity) ∧
    s'.opts.boundaryTemperature =
      (if c.temperatureFn then s.opts.boundaryTemperature
       else c.temperatureValue.getD s.opts.boundaryTemperature) ∧
    s'.opts.rhoType = c.rhoType.getD s.opts.rhoType ∧
    s'.opts.muType = c.muType.getD s.opts.muType := by
  have h := setFromOptions_values hs
  rw [h.bp, h.bv, h.bt, h.rho, h.mu]
  simp [readValues]

/-- Non-vacuity of C30: two options given, kept apart from a third. -/
example : ∃ s s', Reaches State.create
      [(.setMode .richards, .success), (.setDisc .mpfaO, .success)] s ∧
    step s (.setFromOptions { real := fun k => match k with
      | .porosity => some (1/3) | .gravity => some 0 | _ => none } {}) = .ok s' ∧
    setting s'.opts .porosity = 1/3 ∧ setting s'.opts .gravity = 0 ∧
    setting s'.opts .soilDensity = 2650 :=
  ⟨_, _, reaches_of_run rfl, rfl, rfl, rfl, rfl⟩

/-! ## C31 : solver hooks are consistent -/

/-- Full statement: for every supported pair, if the SNES residual is accepted then a SNES
Jacobian and the pre-solve hook for the same equations are accepted too.  Proved here for
Richards; TH and SALINITY are refuted below. -/
theorem C31_snes_hooks_consistent_partial (d : Disc) (r : Routine)
    (h : setSNESFunction .richards d = .installed r) :
    setSNESJacobian .richards d = .installed r ∧ preSolve .richards d = .installed r := by
  cases d <;> simp_all [setSNESFunction, setSNESJacobian, preSolve]

/-- For TH the residual accepted is the Richards one and the pre-solve hook is refused; for
SALINITY the Jacobian is the one of the Richards residual. -/
theorem C31_inconsistent_hooks :
    (setSNESFunction .th .mpfaO = .installed .mpfaoSnesRichards ∧
      preSolve .th .mpfaO = .unsupported) ∧
    (setSNESFunction .salinity .mpfaO = .installed .mpfaoSnesSalinity ∧
      setSNESJacobian .salinity .mpfaO = .installed .mpfaoSnesRichards) := by
  decide

/-- The pre-solve hook that runs always belongs to the residual installed, and it is missing only
in TH mode. -/
theorem C31_presolve_matches (m : Mode) (d : Disc) (r : Routine) :
    (preSolve m d = .installed r → setSNESFunction m d = .installed r) ∧
    (setSNESFunction m d = .installed r → m ≠ .th ∨ d = .fvTpf →
      preSolve m d = .installed r) := by
  cases m <;> cases d <;> simp [setSNESFunction, preSolve]

/-- For TS, the Jacobian installed always belongs to the residual installed. -/
theorem C31_ts_jacobian_matches (m : Mode) (d : Disc) (r : Routine)
    (h : setIJacobian m d = .installed r) : setIFunction m d = .installed r := by
  cases m <;> cases d <;> simp_all [setIFunction, setIJacobian]

/-- For TS, exactly Richards and TH with MPFA-O have a Jacobian of their own; for the two variants of
MPFA-O and for salinity the call succeeds without installing one, and it is refused elsewhere. -/
theorem C31_ts_jacobian_where (m : Mode) (d : Disc) :
    ((∃ r, setIJacobian m d = .installed r) ↔ d = .mpfaO ∧ m ≠ .salinity) ∧
    (setIJacobian m d = .nothing ↔
      d = .mpfaODae ∨ d = .mpfaOTransientVar ∨ (d = .mpfaO ∧ m = .salinity)) := by
  cases m <;> cases d <;> simp [setIJacobian]

/-- Every supported pair can be driven by SNES or by TS, except mixed finite elements (BDM). -/
theorem C31_every_pair_has_a_driver (m : Mode) (d : Disc) (h : Supported m d) (hb : d ≠ .bdm) :
    setIFunction m d ≠ .unsupported ∨ setSNESFunction m d ≠ .unsupported := by
  cases m <;> cases d <;> simp_all [setIFunction, setSNESFunction, Supported, solver]

/-- A failed SNES solve can be retried only with the two-point scheme: everywhere else the
step-cut hook is refused although the residual is accepted. -/
theorem C31_time_cut_only_tpf (m : Mode) (d : Disc) :
    timeCut m d ≠ .unsupported ↔ d = .fvTpf := by
  cases m <;> cases d <;> decide

/-! ## C78 : destroying an object -/

/-- Full statement: `TDyDestroy` is defined on every live object.  Proved here for objects that
have no discretization yet, and for objects whose last configuration call is a successful
`TDySetFromOptions`. -/
theorem C78_destroy_defined_partial (s s' : State) (c : CmdLine) (e : OptEnv)
    (hm : SolverMatches s) (hc : c.mode = none)
    (hs : step s (.setFromOptions c e) = .ok s') :
    destroyDefined s' = true :=
  destroy_of_setFromOptions hm hc hs

theorem C78_destroy_fresh : destroyDefined State.create = true := rfl

/-- Destroying an object between `TDySetDiscretization` and `TDySetFromOptions` is undefined. -/
theorem C78_destroy_before_options_undefined :
    ∃ s, Reaches State.create [(.setMode .richards, .success), (.setDisc .mpfaO, .success)] s ∧
      destroyDefined s = false :=
  ⟨_, reaches_of_run rfl, rfl⟩

/-- Non-vacuity of C78. -/
example : ∃ s s', Reaches State.create
    [(.setMode .richards, .success), (.setDisc .mpfaO, .success)] s ∧ SolverMatches s ∧
    step s (.setFromOptions {} {}) = .ok s' :=
  ⟨_, _, reaches_of_run rfl,
    ⟨_, rfl, rfl, rfl, rfl, rfl, rfl, by decide, by decide⟩, rfl⟩

end TDy.Props
