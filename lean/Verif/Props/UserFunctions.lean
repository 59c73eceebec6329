import Verif.Proofs.UserFunctions
import Verif.Props.Slots

/-!
# C160-C161: what a user sets is what the solver evaluates

C160: a function or constant that a user sets, by a call, by a registered name or on the command
line, is what evaluation uses, with the user's arguments, until the user sets another one.
C161: a name that is not registered is reported as an error, and changes nothing.
-/

namespace TDy.Api.Props

open TDy TDy.Slots TDy.Slots.Spec TDy.Api TDy.Api.Spec TDy.Api.Proofs

/-! ## C160 : what was set stays in force -/

/-- Conditions.  In every history without undefined behaviour, what the last call concerning a
condition asked for is what evaluation gives, at every number of points, for all coordinates and
all previous contents of the output, and evaluation is defined: no released block is used.
Missing, and false (`C160_violated`): a later TDySetFromOptions between the two. -/
theorem C160_latest_condition_in_force_partial (before after : List Call) (c : Call) (k : CondKey)
    (a : Asked) (ha : Asks before c k a) (hl : ∀ c' ∈ after, Leaves c' k) (d : Dy)
    (hr : run {} (before ++ c :: after) = some d) (U : UserFns) (tmp : Nat → Rat) (n : Nat)
    (x v : Nat → Rat) :
    ∃ w, evalCondition U tmp d k n x v = some w ∧ a.gives U n x v w := by
  obtain ⟨d1, h1, h2⟩ := run_append hr
  obtain ⟨d2, h3, h4⟩ := run_cons h2
  have hg : Good d := Good.run Good.fresh hr
  refine Stored.eval hg (Stored.run ?_ hl h4) U tmp n x v
  cases c with
  | setCondition s f =>
    obtain ⟨hn, rfl⟩ := ha
    rw [← key_of_names.1 hn]
    exact Stored.set h3
  | selectCondition s name =>
    obtain ⟨hn, f, hf, rfl⟩ := ha
    rw [← key_of_names.1 hn]
    refine Stored.select ?_ h3
    rw [getFn_run h1, hf]
  | register n f => exact ha.elim
  | setMaterial s k kind a => exact ha.elim
  | setFromOptions c => exact ha.elim
  | setup => exact ha.elim

/-- The command line.  After a TDySetFromOptions that returned 0, the boundary pressure, velocity
and temperature asked for on the command line are what evaluation gives until a later call
concerning them. -/
theorem C160_command_line_in_force (before after : List Call) (c : CmdLine) (k : CondKey)
    (a : Asked) (ha : CmdAsks before c k a) (hl : ∀ c' ∈ after, Leaves c' k) (d0 d1 d : Dy)
    (h0 : run {} before = some d0) (h1 : setFromOptions d0 c = .ok d1)
    (h2 : run d1 after = some d) (U : UserFns) (tmp : Nat → Rat) (n : Nat) (x v : Nat → Rat) :
    ∃ w, evalCondition U tmp d k n x v = some w ∧ a.gives U n x v w := by
  have hg1 : Good d1 := (Good.run Good.fresh h0).setFromOptions (Or.inl h1)
  refine Stored.eval (hg1.run h2) (Stored.run ?_ hl h2) U tmp n x v
  refine stored_options (before := before) ?_ ha h1
  intro name f hf
  rw [getFn_run h0, hf]

/-- Material properties.  In every history without undefined behaviour the values of the last setter
of a property are the values evaluation gives at every point, whatever the uninitialised local array
of the setter held. -/
theorem C160_latest_material_in_force_partial (before after : List Call) (stack : Nat → Rat)
    (k : MatKey) (kind : Kind) (a : MatValue) (hl : ∀ c' ∈ after, LeavesMaterial c' k) (d : Dy)
    (hr : run {} (before ++ .setMaterial stack k kind a :: after) = some d) (U : UserFns)
    (tmp : Nat → Rat) (n : Nat) (x v : Nat → Rat) :
    ∃ w, evalMaterial U tmp d k n x v = some w ∧ Entrywise U kind a n x v tmp w := by
  obtain ⟨d1, h1, h2⟩ := run_append hr
  obtain ⟨d2, h3, h4⟩ := run_cons h2
  have hg : Good d := Good.run Good.fresh hr
  have hh : HoldsM d k (matEntry kind a) (matBlock stack kind a) :=
    (HoldsM.setMaterial h3).run hl h4
  rw [hh.eval hg]
  have idx : ∀ i r c : Nat, 9*i + 3*r + c = 3*3*i + r*3 + c := by intro i r c; omega
  cases kind <;> cases a
  · refine ⟨_, rfl, fun i hi => ?_⟩
    rw [constantScalar_eq, if_pos hi]; simp [matBlock, wr]
  · exact ⟨_, rfl, rfl⟩
  · refine ⟨_, rfl, fun i hi r hr => ?_⟩
    rw [idx]
    refine (Slots.Props.C11_constant_isotropic 3 n _ v i r r hr hr).trans ?_
    rw [if_pos ⟨hi, rfl⟩]; simp [matBlock, wr]
  · refine ⟨_, rfl, fun i hi r hr => ?_⟩
    rw [idx]
    refine (Slots.Props.C11_isotropic 3 n _ v i r r hr hr).trans ?_
    rw [if_pos ⟨hi, rfl⟩]
  · refine ⟨_, rfl, fun i hi r hr => ?_⟩
    rw [idx]
    refine (Slots.Props.C11_constant_diagonal 3 n _ v i r r hr hr).trans ?_
    rw [if_pos ⟨hi, rfl⟩]
    have : r = 0 ∨ r = 1 ∨ r = 2 := by omega
    rcases this with rfl | rfl | rfl <;> simp [matBlock, wr]
  · refine ⟨_, rfl, fun i hi r hr => ?_⟩
    rw [idx]
    refine (Slots.Props.C11_diagonal 3 n _ v i r r hr hr).trans ?_
    rw [if_pos ⟨hi, rfl⟩]
  · refine ⟨_, rfl, fun i hi r hr c hc => ?_⟩
    rw [idx]
    refine (Slots.Props.C11_constant_full 3 n _ v i r c hr hc).trans ?_
    rw [if_pos hi, Nat.mul_comm 3 r]; rfl
  · exact ⟨_, rfl, rfl⟩

/-- After a TDySetFromOptions that returned 0, every further sequence of these calls is defined. -/
theorem C160_calls_after_options_are_defined (before after : List Call) (c : CmdLine) (d0 d1 : Dy)
    (h0 : run {} before = some d0) (h1 : setFromOptions d0 c = .ok d1) :
    ∃ d, run d1 after = some d := by
  have hn : Names d0.lib ([] ++ before) := Names.run (Or.inl ⟨rfl, fun _ => rfl⟩) h0
  have hl : d1.lib = d0.lib := lib_setFromOptions (Or.inl h1)
  refine Ready.run ⟨?_, (ok_options h1).1, _, by rw [hl]; exact hn⟩ after
  obtain ⟨s, hs, _⟩ := unset_options (k := .forcing) (c := c) trivial h1
  exact ⟨s, hs⟩

/-- Before the first TDySetFromOptions every setter dereferences a NULL pointer. -/
theorem C160_setters_before_options_undefined (names : List (String × Nat)) (s : CondSetter)
    (f : Nat) (stack : Nat → Rat) (k : MatKey) (kind : Kind) (a : MatValue) :
    run {} (names.map (fun p => Call.register p.1 p.2) ++ [.setCondition s f]) = none ∧
    run {} (names.map (fun p => Call.register p.1 p.2) ++ [.setMaterial stack k kind a]) = none := by
  have key : ∀ (l : List (String × Nat)) (d : Dy) (c : Call), d.conditions = none →
      d.matprop = none → (∀ e : Dy, e.conditions = none → e.matprop = none → step e c = .ub) →
      run d (l.map (fun p => Call.register p.1 p.2) ++ [c]) = none := by
    intro l
    induction l with
    | nil =>
      intro d c h1 h2 h
      show run d [c] = none
      unfold run; rw [h d h1 h2]
    | cons p l ih =>
      intro d c h1 h2 h
      show run d (Call.register p.1 p.2 :: _) = none
      unfold run
      unfold step
      dsimp only
      cases Lib.registerFn d.lib p.1 p.2 with
      | ok l' => exact ih _ c h1 h2 h
      | err l' => exact ih _ c h1 h2 h
      | ub => rfl
  refine ⟨key _ _ _ rfl rfl ?_, key _ _ _ rfl rfl ?_⟩
  · intro e h1 _
    simp [step, setCondition, storeCondition, h1]
  · intro e _ h2
    simp [step, setMaterial, h2]

/-- Every TDySetFromOptions forgets every condition that its own command line does not give, whatever
was set before, and evaluating a forgotten condition calls a NULL pointer. -/
theorem C160_options_forget (before : List Call) (c : CmdLine) (k : CondKey)
    (hk : k = .forcing ∨ k = .energyForcing ∨ k = .boundaryPressureType ∨ k = .boundarySalineConc ∨
      (k = .boundaryPressure ∧ c.pressureFunc = none ∧ c.pressureValue = none) ∨
      (k = .boundaryVelocity ∧ c.velocityFunc = none ∧ c.velocityValue = none) ∨
      (k = .boundaryTemperature ∧ c.temperatureFunc = none ∧ c.temperatureValue = none))
    (d0 d : Dy) (_h0 : run {} before = some d0) (h1 : setFromOptions d0 c = .ok d)
    (U : UserFns) (tmp : Nat → Rat) (n : Nat) (x v : Nat → Rat) :
    evalCondition U tmp d k n x v = none := by
  refine Unset.eval (unset_options (c := c) (d := d0) ?_ h1) U tmp n x v
  rcases hk with rfl | rfl | rfl | rfl | ⟨rfl, h2, h3⟩ | ⟨rfl, h2, h3⟩ | ⟨rfl, h2, h3⟩
  · trivial
  · trivial
  · trivial
  · trivial
  all_goals
    show Silent d0.lib _ _
    unfold Silent
    rw [h2]; exact h3

namespace WitnessUser

/-- Options read, a porosity and a forcing set, another quantity set, options read again. -/
def once : List Call :=
  [.register "f" 3, .setFromOptions { pressureValue := some 5 }, .selectCondition .forcing "f",
    .setMaterial (fun _ => 77) .porosity .scalar (.constant fun _ => 1),
    .setCondition .boundaryVelocity 8, .setup]

end WitnessUser

/-- C160 as stated does not hold: a forcing that the user has set is no longer there after another
TDySetFromOptions, which returns 0. -/
theorem C160_violated :
    ∃ (before : List Call) (c : Call) (k : CondKey) (a : Asked) (d d' : Dy),
      Asks before c k a ∧ run {} (before ++ [c]) = some d ∧ setFromOptions d {} = .ok d' ∧
      ∀ (U : UserFns) (tmp : Nat → Rat) (n : Nat) (x v : Nat → Rat),
        evalCondition U tmp d' k n x v = none :=
  ⟨[.setFromOptions {}], .setCondition .forcing 3, .forcing, .function 3, _, _,
    ⟨rfl, rfl⟩, rfl, rfl, fun _ _ _ _ _ => rfl⟩

open WitnessUser in
/-- Non-vacuity: in the history `once` the forcing, the boundary pressure, the velocity and the
porosity are what was asked for, although other calls follow. -/
example : ∃ d, run {} once = some d ∧
    (∀ U tmp n x v, ∃ w, evalCondition U tmp d .forcing n x v = some w ∧ w = U 3 n x v) ∧
    (∀ U tmp n x v, ∃ w, evalMaterial U tmp d .porosity n x v = some w ∧
      Entrywise U .scalar (.constant fun _ => 1) n x v tmp w) := by
  obtain ⟨d, hd⟩ : ∃ d, run {} once = some d := ⟨_, rfl⟩
  refine ⟨d, hd, fun U tmp n x v => ?_, fun U tmp n x v => ?_⟩
  · refine C160_latest_condition_in_force_partial
      [.register "f" 3, .setFromOptions { pressureValue := some 5 }]
      [.setMaterial (fun _ => 77) .porosity .scalar (.constant fun _ => 1),
        .setCondition .boundaryVelocity 8, .setup]
      (.selectCondition .forcing "f") .forcing (.function 3) ⟨rfl, 3, rfl, rfl⟩ ?_ d hd U tmp n x v
    intro c' hc'
    simp only [List.mem_cons, List.not_mem_nil, or_false] at hc'
    rcases hc' with rfl | rfl | rfl
    · trivial
    · exact rfl
    · trivial
  · refine C160_latest_material_in_force_partial
      [.register "f" 3, .setFromOptions { pressureValue := some 5 }, .selectCondition .forcing "f"]
      [.setCondition .boundaryVelocity 8, .setup] (fun _ => 77) .porosity .scalar _ ?_ d hd
      U tmp n x v
    intro c' hc'
    simp only [List.mem_cons, List.not_mem_nil, or_false] at hc'
    rcases hc' with rfl | rfl <;> trivial

/-! ## C161 : names that are not registered -/

/-- Selecting a condition by name: an error and no change when the name is not registered, success
otherwise.  On the command line an unregistered name for the temperature is an error.  Missing, and
false (`C161_violated`): the names for the pressure and the velocity. -/
theorem C161_unknown_name_refused_partial (before : List Call) (d : Dy)
    (hr : run {} before = some d) (hs : ∃ s, d.conditions = some s) (name : String) :
    (∀ s : CondSetter, selectCondition d s name = .err d ↔ registered name before = none) ∧
    (∀ s : CondSetter, (∃ d', selectCondition d s name = .ok d') ↔
      (registered name before).isSome = true) ∧
    (∀ c : CmdLine, c.temperatureFunc = some name → registered name before = none →
      ¬ ∃ d', setFromOptions d c = .ok d') := by
  have hg := getFn_run hr name
  obtain ⟨st, hst⟩ := hs
  refine ⟨fun s => ?_, fun s => ?_, fun c hc hn => ?_⟩
  · unfold selectCondition
    rw [hg]
    cases registered name before with
    | none => simp
    | some f => simp [setCondition, storeCondition, hst]
  · unfold selectCondition
    rw [hg]
    cases registered name before with
    | none => simp
    | some f => simp [setCondition, storeCondition, hst]
  · rintro ⟨d', hd⟩
    have := (ok_options hd).2 name hc
    rw [hg, hn] at this
    exact this rfl

/-- C161 as stated does not hold: whatever was called before, TDySetFromOptions with a name for the
boundary pressure (or velocity) that is not registered returns 0, and evaluating the boundary
pressure (or velocity) then calls a NULL pointer, even if a constant was given as well. -/
theorem C161_unknown_name_not_reported (before : List Call) (d : Dy) (hr : run {} before = some d)
    (hs : d.setupFinished = false) (name : String) (hn : registered name before = none)
    (p : Option Rat) :
    (∃ d', setFromOptions d { pressureFunc := some name, pressureValue := p } = .ok d' ∧
      ∀ (U : UserFns) (tmp : Nat → Rat) (n : Nat) (x v : Nat → Rat),
        evalCondition U tmp d' .boundaryPressure n x v = none) ∧
    (∃ d', setFromOptions d { velocityFunc := some name, velocityValue := p } = .ok d' ∧
      ∀ (U : UserFns) (tmp : Nat → Rat) (n : Nat) (x v : Nat → Rat),
        evalCondition U tmp d' .boundaryVelocity n x v = none) := by
  have hg := getFn_run hr name
  rw [hn] at hg
  have hg : Lib.getFn d.lib name = .notFound := hg
  constructor
  · have h1 : ∃ d', setFromOptions d { pressureFunc := some name, pressureValue := p } = .ok d' := by
      simp [setFromOptions, hs, readPressure, readVelocity, readTemperature, selectCondition, hg,
        Res.bindIgnore]
    obtain ⟨d', h1⟩ := h1
    exact ⟨d', h1, fun U tmp n x v =>
      Unset.eval (unset_options (k := .boundaryPressure) (by exact hg) h1) U tmp n x v⟩
  · have h1 : ∃ d', setFromOptions d { velocityFunc := some name, velocityValue := p } = .ok d' := by
      simp [setFromOptions, hs, readPressure, readVelocity, readTemperature, selectCondition, hg,
        Res.bindIgnore]
    obtain ⟨d', h1⟩ := h1
    exact ⟨d', h1, fun U tmp n x v =>
      Unset.eval (unset_options (k := .boundaryVelocity) (by exact hg) h1) U tmp n x v⟩

/-- The full statement of C161 fails. -/
theorem C161_violated :
    ¬ ∀ (before : List Call) (d : Dy), run {} before = some d → d.setupFinished = false →
      ∀ (c : CmdLine) (name : String), c.pressureFunc = some name →
        registered name before = none → ¬ ∃ d', setFromOptions d c = .ok d' := by
  intro h
  exact h [] {} rfl rfl { pressureFunc := some "no_such_function" } "no_such_function" rfl rfl
    ⟨_, rfl⟩

/-- Non-vacuity of C161: one name is registered, another is not. -/
example : let before : List Call := [.setFromOptions {}, .register "f" 3]
    ∃ d, run {} before = some d ∧ (∃ s, d.conditions = some s) ∧ d.setupFinished = false ∧
      registered "f" before = some 3 ∧ registered "g" before = none :=
  ⟨_, rfl, ⟨_, rfl⟩, rfl, rfl, rfl⟩

/-- A call does not undo the set-up. -/
theorem setup_stays (d : Dy) (a : Call) (e : Dy) (hd : d.setupFinished = true)
    (h : step d a = .ok e ∨ step d a = .err e) : e.setupFinished = true := by
  have store : ∀ k en b, storeCondition d k en b = .ok e ∨ storeCondition d k en b = .err e →
      e.setupFinished = true := by
    intro k en b h
    unfold storeCondition at h
    split at h
    · rcases h with h | h <;> cases h
    · rcases h with h | h
      · injection h with h; rw [← h]; exact hd
      · cases h
  cases a with
  | register name f =>
    simp only [step] at h
    split at h <;> rcases h with h | h <;> first | (injection h with h; rw [← h]; exact hd) | cases h
  | setCondition s f => exact store _ _ _ h
  | selectCondition s name =>
    simp only [step, selectCondition] at h
    split at h
    · exact store _ _ _ h
    · rcases h with h | h
      · cases h
      · injection h with h; rw [← h]; exact hd
    · rcases h with h | h <;> cases h
  | setMaterial stack k kind v =>
    simp only [step, setMaterial] at h
    split at h
    · rcases h with h | h <;> cases h
    · rcases h with h | h
      · injection h with h; rw [← h]; exact hd
      · cases h
  | setFromOptions c =>
    simp only [step, setFromOptions, hd, if_true] at h
    rcases h with h | h
    · cases h
    · injection h with h; rw [← h]; exact hd
  | setup =>
    simp only [step] at h
    rcases h with h | h
    · injection h with h; rw [← h]
    · cases h

/-- C160.  Once the set-up is finished, the options are refused and forget nothing: `TDySetFromOptions`
returns an error and leaves everything as it is, after any calls. -/
theorem C160_options_after_setup_refused (before after : List Call) (c : CmdLine) (d0 d1 : Dy)
    (h : run d0 (before ++ [.setup] ++ after) = some d1) :
    setFromOptions d1 c = .err d1 := by
  have key : ∀ cs d d', d.setupFinished = true → run d cs = some d' → d'.setupFinished = true := by
    intro cs
    induction cs with
    | nil => intro d d' hd h; injection h with h; rw [← h]; exact hd
    | cons a cs ih =>
      intro d d' hd h
      rw [run] at h
      have hs : ∀ e, step d a = .ok e ∨ step d a = .err e → e.setupFinished = true := by
        intro e he
        exact setup_stays d a e hd he
      cases hst : step d a with
      | ok e => rw [hst] at h; exact ih e d' (hs e (Or.inl hst)) h
      | err e => rw [hst] at h; exact ih e d' (hs e (Or.inr hst)) h
      | ub => rw [hst] at h; cases h
  have hfin : d1.setupFinished = true := by
    obtain ⟨d2, h2, h3⟩ := run_append h
    obtain ⟨d3, h4, h5⟩ := run_append h2
    rw [run, step] at h5
    injection h5 with h5
    exact key after d2 d1 (by rw [← h5]) h3
  unfold setFromOptions
  rw [if_pos hfin]

/-- A history that meets the hypothesis. -/
example (c : CmdLine) : ∃ d1, run ({} : Dy) ([] ++ [.setup] ++ [.setFromOptions {}]) = some d1 ∧
    setFromOptions d1 c = .err d1 := by
  refine ⟨_, rfl, ?_⟩
  exact C160_options_after_setup_refused [] [.setFromOptions {}] c ({} : Dy) _ rfl

end TDy.Api.Props
