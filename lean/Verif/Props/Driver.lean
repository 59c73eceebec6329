import Verif.Model.Driver
import Mathlib.Tactic.NormNum

/-! # C29, C84, C85: what the driver sets up -/

namespace TDy.Driver.Props

open TDy.Slots TDy.Driver

/-- The quantities a mode uses. -/
def needed : Mode → MatKey → Bool
  | .richards, k => k == .porosity || k == .permeability || k == .residualSaturation
  | .th, k => k == .porosity || k == .permeability || k == .residualSaturation ||
      k == .thermalConductivity || k == .soilDensity || k == .soilSpecificHeat
  | .salinity, k => k == .porosity || k == .permeability || k == .residualSaturation ||
      k == .salineMolecularWeight || k == .salineDiffusivity

/-- The quantities that can be read from a file. -/
def readable (k : MatKey) : Bool := k == .porosity || k == .permeability

theorem slots_fromFile (e : Env) (k k' : MatKey) (s : Store MatKey) :
    (fromFileOrDefault e k s).slots k' =
      if k' = k ∧ has s k = false then
        ⟨((e.files k).getD (e.defaults k)).context, ((e.files k).getD (e.defaults k)).fn,
         ((e.files k).getD (e.defaults k)).dtor⟩
      else s.slots k' := by
  unfold fromFileOrDefault
  by_cases h : has s k = true
  · simp [h]
  · simp only [h, Bool.false_eq_true, if_false]
    cases e.files k <;> simp [apply, Slots.set]

theorem slots_orDefault (e : Env) (k k' : MatKey) (s : Store MatKey) :
    (orDefault e k s).slots k' =
      if k' = k ∧ has s k = false then
        ⟨(e.defaults k).context, (e.defaults k).fn, (e.defaults k).dtor⟩
      else s.slots k' := by
  unfold orDefault
  by_cases h : has s k = true
  · simp [h]
  · simp [h, apply, Slots.set]

/-- Every quantity after the driver's initialisation, whether or not that succeeded afterwards. -/
theorem slots_properties (e : Env) (s : Store MatKey) (k : MatKey) :
    (properties e s).slots k =
      if (has s k = false ∨ (e.mode = .salinity ∧ k = .salineMolecularWeight)) ∧
          needed e.mode k = true then
        (let c := if readable k then (e.files k).getD (e.defaults k) else e.defaults k
         ⟨c.context, c.fn, c.dtor⟩)
      else s.slots k := by
  cases hm : e.mode <;> cases k <;>
    simp [properties, modeProperties, hm, slots_orDefault, slots_fromFile, needed, readable, has,
      apply, Slots.set] <;> rfl

/-- The store a call leaves, whatever its outcome. -/
def after (r : Res (Store MatKey)) (s : Store MatKey) : Store MatKey :=
  match r with
  | .ok s' => s'
  | .err s' => s'
  | .ub => s

theorem after_initialize (e : Env) (s : Store MatKey) :
    after (initTDy e s) s = if e.disc = .wy then s else properties e s := by
  unfold initTDy
  split
  · rfl
  · split
    · rfl
    · split <;> rfl

/-- Partial C29: apart from the saline molecular weight, the driver never replaces a material
property the user has set, in any mode, whether or not initialisation succeeds. -/
theorem C29_user_properties_kept_partial (e : Env) (s : Store MatKey) (k : MatKey)
    (hk : k ≠ .salineMolecularWeight) (hset : has s k = true) :
    (after (initTDy e s) s).slots k = s.slots k := by
  rw [after_initialize]
  split
  · rfl
  · rw [slots_properties, if_neg]
    simp [hset, hk]

/-- C29 fails: in salinity mode the molecular weight the user set is always replaced by the option
value, and the user's context is released. -/
theorem C29_molecular_weight_replaced (e : Env) (s : Store MatKey) (hd : e.disc ≠ .wy)
    (hm : e.mode = .salinity) :
    (after (initTDy e s) s).slots .salineMolecularWeight =
      ⟨(e.defaults .salineMolecularWeight).context, (e.defaults .salineMolecularWeight).fn,
       (e.defaults .salineMolecularWeight).dtor⟩ := by
  rw [after_initialize, if_neg hd, slots_properties, if_pos (by simp [hm, needed])]
  simp [readable]

/-- C84: after a successful initialisation every quantity the mode uses is available: the user's
if set (C29), else the one of the file for porosity and permeability, else the option value. -/
theorem C84_needed_properties_available (e : Env) (s s' : Store MatKey)
    (h : initTDy e s = .ok s')
    (hdef : ∀ k, (e.defaults k).fn.isSome = true)
    (hfile : ∀ k c, e.files k = some c → c.fn.isSome = true) (k : MatKey)
    (hk : needed e.mode k = true) : has s' k = true := by
  have hs : s' = properties e s := by
    unfold initTDy at h
    split at h
    · simp at h
    · split at h
      · simp at h
      · split at h
        · simpa using h.symm
        · simp at h
  subst hs
  unfold has
  rw [slots_properties]
  split
  · simp only
    split
    · cases hf : e.files k with
      | none => simpa using hdef k
      | some c => simpa using hfile k c hf
    · exact hdef k
  · rename_i hn
    rw [not_and_or, not_or] at hn
    rcases hn with ⟨h1, -⟩ | h1
    · simpa [has, Option.isSome_iff_ne_none] using h1
    · exact absurd hk h1

/-- What is not set by the user is taken from the file if one was named, for porosity and
permeability, and from the options otherwise. -/
theorem C84_source_of_defaults (e : Env) (s s' : Store MatKey) (h : initTDy e s = .ok s')
    (k : MatKey) (hk : needed e.mode k = true) (hset : has s k = false) :
    s'.slots k =
      (let c := if readable k then (e.files k).getD (e.defaults k) else e.defaults k
       ⟨c.context, c.fn, c.dtor⟩) := by
  have hs : s' = after (initTDy e s) s := by rw [h]; rfl
  have hd : e.disc ≠ .wy := by
    intro hd; unfold initTDy at h; rw [if_pos hd] at h; simp at h
  rw [hs, after_initialize, if_neg hd, slots_properties, if_pos ⟨Or.inl hset, hk⟩]

/-- The driver accepts exactly these combinations; the others are reported, not run. -/
theorem C84_supported_combinations (e : Env) (s : Store MatKey) :
    (∃ s', initTDy e s = .ok s') ↔
      e.disc ≠ .wy ∧ e.setupOk = true ∧ ¬ (e.method = .snes ∧ e.mode = .th) ∧
      ¬ (e.method = .ts ∧ e.mode = .salinity) := by
  unfold initTDy
  by_cases hd : e.disc = .wy
  · simp [hd]
  · cases hs : e.setupOk
    · simp [hd]
    · cases hme : e.method <;> cases hmo : e.mode <;> simp [hd, methodSupports]

/-- A user who set porosity and the molecular weight, in salinity mode. -/
def demoEnv : Env :=
  { disc := .mpfaO, mode := .salinity, method := .snes
    defaults := fun k => ⟨k, some 100, some 101, some 102⟩
    files := fun k => if k = .permeability then some ⟨k, some 7, some 8, some 9⟩ else none
    setupOk := true }

def demoStore : Store MatKey :=
  runSets Store.create [⟨.porosity, some 1, some 2, some 3⟩,
    ⟨.salineMolecularWeight, some 4, some 5, some 6⟩]

example : ∃ s', initTDy demoEnv demoStore = .ok s' ∧
    s'.slots .porosity = ⟨some 1, some 2, some 3⟩ ∧
    s'.slots .permeability = ⟨some 7, some 8, some 9⟩ ∧
    s'.slots .residualSaturation = ⟨some 100, some 101, some 102⟩ ∧
    s'.slots .salineMolecularWeight = ⟨some 100, some 101, some 102⟩ ∧
    s'.released = [(6, 4)] := by
  refine ⟨properties demoEnv demoStore, rfl, ?_⟩
  decide

/-! ## C85 -/

/-- Partial C85: in Richards mode the run starts from the initial-condition file if given, else
from the `-tdy_init_file` file if given, else from random pressures if asked for, else from
atmospheric pressure everywhere.  (`-tdy_init_file` with random fields is rejected by
`TDySetFromOptions`.) -/
theorem C85_richards_start_partial (e : IcEnv) (v : Vecs) (hm : e.mode = .richards)
    (hex : e.random = true → e.initFile = none) :
    (initialSolution e v).soln =
      match e.ic, e.initFile with
      | some f, _ => f
      | none, some f => f
      | none, none => if e.random then e.draw 1e4 1e6 0 else fun _ => 101325 := by
  unfold initialSolution richardsInitialize
  simp only [hm]
  cases hic : e.ic with
  | some f => cases e.method <;> rfl
  | none =>
    cases hif : e.initFile with
    | some f =>
      have hr : e.random = false := by
        by_contra h
        simp [hex (by simpa using h)] at hif
      cases e.method <;> simp [hr]
    | none => cases e.method <;> cases e.random <;> simp

/-- With SNES the previous solution is the initial one, in every mode. -/
theorem C85_previous_solution_partial (e : IcEnv) (v : Vecs) (hm : e.method = .snes) :
    (initialSolution e v).prev = (initialSolution e v).soln := by
  unfold initialSolution
  simp only [hm]

/-- C85 fails: in TH and salinity mode the file given with `-tdy_init_file` is not read. -/
theorem C85_init_file_ignored (e : IcEnv) (v : Vecs) (hm : e.mode = .th ∨ e.mode = .salinity)
    (f : Nat → ℝ) : initialSolution { e with initFile := some f } v = initialSolution e v := by
  rcases hm with hm | hm <;> simp [initialSolution, thInitialize, salinityInitialize, hm]

/-- C85 fails: without options, TH mode starts at a temperature of 101325 degrees and salinity mode
at a salt fraction of 101325. -/
theorem C85_default_start_unphysical (e : IcEnv) (v : Vecs)
    (hm : e.mode = .th ∨ e.mode = .salinity) (hr : e.random = false) (hic : e.ic = none) (c : Nat) :
    (initialSolution e v).soln (2*c + 1) = 101325 := by
  rcases hm with hm | hm <;> cases hme : e.method <;>
    simp [initialSolution, thInitialize, salinityInitialize, hm, hr, hic, hme]

/-- Random fields respect the documented ranges: pressures in even entries, the second unknown in
odd entries. -/
theorem C85_random_ranges_partial (e : IcEnv) (v : Vecs) (hr : e.random = true) (hic : e.ic = none)
    (hd : ∀ lo hi k i, lo ≤ hi → lo ≤ e.draw lo hi k i ∧ e.draw lo hi k i ≤ hi) (c : Nat) :
    (e.mode = .th → 1e4 ≤ (initialSolution e v).soln (2*c) ∧
      15 ≤ (initialSolution e v).soln (2*c+1) ∧ (initialSolution e v).soln (2*c+1) ≤ 35) ∧
    (e.mode = .salinity → 1e4 ≤ (initialSolution e v).soln (2*c) ∧
      0.1 ≤ (initialSolution e v).soln (2*c+1) ∧ (initialSolution e v).soln (2*c+1) ≤ 0.8) := by
  have h1 : (2*c) % 2 = 0 := by omega
  have h2 : (2*c+1) % 2 = 1 := by omega
  constructor <;> intro hm
  · have a := hd 1e4 1e5 0 (2*c) (by norm_num)
    have b := hd 15 35 1 (2*c+1) (by norm_num)
    cases hme : e.method <;>
      simp only [initialSolution, thInitialize, hm, hr, hic, hme, h1, h2, if_true, one_ne_zero,
        if_false] <;> exact ⟨a.1, b.1, b.2⟩
  · have a := hd 1e4 1e5 0 (2*c) (by norm_num)
    have b := hd 0.1 0.8 1 (2*c+1) (by norm_num)
    cases hme : e.method <;>
      simp only [initialSolution, salinityInitialize, hm, hr, hic, hme, h1, h2, if_true,
        one_ne_zero, if_false] <;> exact ⟨a.1, b.1, b.2⟩

example : (initialSolution ⟨.th, .ts, false, fun lo _ _ _ => lo, some (fun _ => 20), none⟩
    ⟨fun _ => 0, fun _ => 0⟩).soln 1 = 101325 :=
  C85_default_start_unphysical _ _ (Or.inl rfl) rfl rfl 0

example : (initialSolution ⟨.richards, .ts, false, fun lo _ _ _ => lo, some (fun _ => 20), none⟩
    ⟨fun _ => 0, fun _ => 0⟩).soln 5 = 20 := by
  rw [C85_richards_start_partial _ _ rfl (by simp)]

example : ∀ v, 15 ≤ (initialSolution ⟨.th, .ts, true, fun lo _ _ _ => lo, none, none⟩ v).soln 7 :=
  fun v => ((C85_random_ranges_partial _ v rfl rfl
    (fun _ _ _ _ h => ⟨le_refl _, h⟩) 3).1 rfl).2.1

end TDy.Driver.Props
