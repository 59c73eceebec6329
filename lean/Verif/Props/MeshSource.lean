import Verif.Proofs.MeshSource

/-!
# C93-C95: where the mesh comes from, which equation of state is used, which diagnostics exist
-/

namespace TDy.Props

open TDy TDy.Spec TDy.Proofs

/-! ## C93 : the source of the mesh -/

/-- The first successful `TDySetFromOptions` of any history gives the object the mesh that the
documented order of precedence names. -/
theorem C93_mesh_source (h : History) (s s' : State) (c : CmdLine) (e : OptEnv)
    (hr : Reaches State.create h s) (hn : ¬ OptionsSucceeded h)
    (hs : step s (.setFromOptions c e) = .ok s') :
    s'.dm = some (newMesh c (lastConstructor h) e.fortran) := by
  have i := mesh_inv hr
  have k := (setFromOptions_mesh hs).2
  have hd : s.dm = none := by
    cases hx : s.dm with
    | none => rfl
    | some d => exact absurd (i.2 (by simp [hx])) hn
  rw [k, hd, i.1]
  cases hp : c.readPflotranMesh <;> simp [newMesh, hp]

/-- A later `TDySetFromOptions` replaces the mesh only by one in PFLOTRAN format. -/
theorem C93_mesh_kept (s s' : State) (d : DmSource) (c : CmdLine) (e : OptEnv)
    (hd : s.dm = some d) (hs : step s (.setFromOptions c e) = .ok s') :
    s'.dm = some (if c.readPflotranMesh then .pflotran else d) := by
  rw [(setFromOptions_mesh hs).2, hd]; rfl

/-- No other call changes the mesh. -/
theorem C93_mesh_stable (s s' : State) (k : Call) (hk : ∀ c e, k ≠ .setFromOptions c e)
    (hs : step s k = .ok s') : s'.dm = s.dm := by
  cases k with
  | setMode m => exact ((setMode_mesh s m).of_ok hs).1
  | setDisc d => exact ((setDisc_mesh s d).of_ok hs).1
  | setDMConstructor id =>
    simp only [step, setDMConstructor] at hs
    split at hs
    · cases hs
    · split at hs <;> cases hs; rfl
  | setWaterDensityType t => simp only [step, setWaterDensityType] at hs; cases hs; rfl
  | setFromOptions c e => exact absurd rfl (hk c e)
  | setup e => exact ((setup_mesh s e).of_ok hs).1
  | _ =>
    have x := (other_step s _ trivial).of_ok hs
    rw [x]

/-- Non-vacuity of C93: two constructors are registered, the second one is used. -/
example : ∃ s s', Reaches State.create
      [(.setMode .richards, .success), (.setDisc .wy, .success),
       (.setDMConstructor 3, .success), (.setDMConstructor 7, .success)] s ∧
    step s (.setFromOptions {} { fortran := true }) = .ok s' ∧ s'.dm = some (.userFn 7) :=
  ⟨_, _, reaches_of_run rfl, rfl, rfl⟩

/-! ## C94 : the equation of state of a set-up object -/

/-- After a successful `TDySetup` the equation of state uses the density and viscosity types
that are set at that moment. -/
theorem C94_setup_installs_eos (s s' : State) (e : SetupEnv) (hs : step s (.setup e) = .ok s') :
    s'.eosRho = s.opts.rhoType ∧ s'.eosMu = s.opts.muType := by
  simp only [step, TDy.setup] at hs
  repeat' split at hs
  all_goals first | (cases hs; done) | (cases hs; exact ⟨rfl, rfl⟩)

/-- So `TDySetWaterDensityType` followed by `TDySetup` selects the density law. -/
theorem C94_density_type_used (s s1 s2 : State) (t : RhoType) (e : SetupEnv)
    (h1 : step s (.setWaterDensityType t) = .ok s1) (h2 : step s1 (.setup e) = .ok s2) :
    s2.eosRho = t := by
  rw [(C94_setup_installs_eos s1 s2 e h2).1]
  simp only [step, setWaterDensityType] at h1
  cases h1; rfl

/-- And the types given on the command line are used. -/
theorem C94_command_line_types_used (s s1 s2 : State) (c : CmdLine) (oe : OptEnv) (e : SetupEnv)
    (h1 : step s (.setFromOptions c oe) = .ok s1) (h2 : step s1 (.setup e) = .ok s2) :
    s2.eosRho = c.rhoType.getD s.opts.rhoType ∧ s2.eosMu = c.muType.getD s.opts.muType := by
  have k := C94_setup_installs_eos s1 s2 e h2
  have v := setFromOptions_values h1
  rw [k.1, k.2, v.rho, v.mu]
  exact ⟨rfl, rfl⟩

/-- Changing the type after `TDySetup` is accepted, but the equation of state keeps the old
one. -/
theorem C94_late_change_ignored (s s' : State) (t : RhoType)
    (hs : step s (.setWaterDensityType t) = .ok s') : s'.eosRho = s.eosRho := by
  simp only [step, setWaterDensityType] at hs
  cases hs; rfl

/-- Non-vacuity of C94. -/
example : ∃ s s', Reaches State.create
      [(.setMode .richards, .success), (.setDisc .mpfaO, .success),
       (.setFromOptions { muType := some .batzleAndWang } {}, .success),
       (.setWaterDensityType .exponential, .success)] s ∧
    step s (.setup {}) = .ok s' ∧ s'.eosRho = .exponential ∧ s'.eosMu = .batzleAndWang :=
  ⟨_, _, reaches_of_run rfl, rfl, rfl, rfl⟩

/-! ## C95 : diagnostics -/

/-- On a mesh read in PFLOTRAN format every call for diagnostics is refused, without effect. -/
theorem C95_no_diagnostics_on_pflotran (s s' : State) (e : SetupEnv)
    (hd : s.dm = some .pflotran) (hs : step s (.setup e) = .ok s') :
    step s' .updateDiagnostics = .err s' ∧ step s' .createDiagnosticVector = .err s' ∧
    step s' .getLiquidSaturation = .err s' := by
  simp only [step, TDy.setup] at hs
  repeat' split at hs
  all_goals first
    | (cases hs; done)
    | (cases hs
       simp [step, TDy.updateDiagnostics, TDy.createDiagnosticVector, getLiquidSaturation,
         setupDiagnostics, hd, Res.bind])

/-- On any other mesh they all work, for the discretizations that have diagnostics. -/
theorem C95_diagnostics_work (s s' : State) (e : SetupEnv) (f : Fn)
    (hu : s.ops.updateDiagnostics = some f.fam) (hf : s.ops.setup = some f)
    (hd : s.dm ≠ some .pflotran) (hs : step s (.setup e) = .ok s') :
    step s' .updateDiagnostics = .ok s' ∧ step s' .createDiagnosticVector = .ok s' ∧
    step s' .getLiquidSaturation = .ok s' := by
  simp only [step, TDy.setup, hf] at hs
  repeat' split at hs
  all_goals try (cases hs; done)
  rename_i hc _ _ _
  cases hs
  have hc' : s.context = some f.fam := by simpa using hc
  simp [step, TDy.updateDiagnostics, TDy.createDiagnosticVector, getLiquidSaturation,
    setupDiagnostics, hd, hu, hc', Res.bind]

/-- Those are MPFA-O in all its forms and the two-point scheme; the finite element methods have
none. -/
theorem C95_which_have_diagnostics (s s' : State) (d : Disc)
    (hs : step s (.setDisc d) = .ok s') :
    (s'.ops.updateDiagnostics).isSome ↔ d ≠ .bdm ∧ d ≠ .wy := by
  simp only [step, TDy.setDisc] at hs
  split at hs
  · cases hs
  · split at hs
    · cases hs
    · rename_i ops heq
      cases hs
      simp only
      revert heq
      cases s.opts.mode <;> cases d <;> simp only [installOps] <;> intro heq <;>
        first
        | (cases heq; done)
        | (cases heq; simp)

/-- Non-vacuity of C95, both ways. -/
example : ∃ s s', Reaches State.create
      [(.setMode .richards, .success), (.setDisc .mpfaO, .success),
       (.setFromOptions { readPflotranMesh := true } {}, .success)] s ∧
    s.dm = some .pflotran ∧ step s (.setup {}) = .ok s' :=
  ⟨_, _, reaches_of_run rfl, rfl, rfl⟩

example : ∃ s s', Reaches State.create
      [(.setMode .salinity, .success), (.setDisc .mpfaO, .success),
       (.setFromOptions {} {}, .success)] s ∧
    s.ops.updateDiagnostics = some .mpfao ∧ s.ops.setup = some ⟨.mpfao, .salinity⟩ ∧
    s.dm ≠ some .pflotran ∧ step s (.setup {}) = .ok s' :=
  ⟨_, _, reaches_of_run rfl, rfl, rfl, by decide, rfl⟩

/-! ## C85 : contradictory initial conditions -/

/-- Asking for a random initial field and for one from a file is refused, in every state. -/
theorem C85_contradictory_refused (s : State) (c : CmdLine) (e : OptEnv)
    (hf : c.initFile = true) (hr : c.initRandom = some true) :
    ∃ s', step s (.setFromOptions c e) = .err s' := by
  simp only [step, TDy.setFromOptions]
  split
  · exact ⟨_, rfl⟩
  · have key : ∃ s', readCommandLine s c = .err s' := by
      have nu : ∀ (s : State) d, setDisc s d ≠ .ub := by
        intro s d; unfold TDy.setDisc; repeat' split
        all_goals simp
      have nm : ∀ (s : State) m, setMode s m ≠ .ub := by
        intro s m; unfold TDy.setMode; dsimp only; split
        · exact nu _ _
        · simp
      unfold readCommandLine
      split
      · exact ⟨_, rfl⟩
      · dsimp only
        cases h1 : (if ¬(readValues s.opts c).mode = c.mode.getD s.opts.mode then
            setMode { s with opts := readValues s.opts c, conditions := true }
              (c.mode.getD s.opts.mode)
          else Res.ok { s with opts := readValues s.opts c, conditions := true }) with
        | ub => split at h1; exact absurd h1 (nm _ _); cases h1
        | ok s1 | err s1 =>
          all_goals
            simp only [Res.bindIgnore]
            cases h2 : (if ¬s1.opts.disc = c.disc.getD s.opts.disc then
                setDisc s1 (c.disc.getD s.opts.disc) else Res.ok s1) with
            | ub => split at h2; exact absurd h2 (nu _ _); cases h2
            | ok s2 | err s2 => exact ⟨_, by simp [hf, hr]; rfl⟩
    obtain ⟨s', h'⟩ := key
    exact ⟨s', by rw [h']; rfl⟩

end TDy.Props
