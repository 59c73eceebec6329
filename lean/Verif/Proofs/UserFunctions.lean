import Verif.Spec.UserFunctions
import Verif.Proofs.Slots

namespace TDy.Api.Proofs

open TDy TDy.Slots TDy.Api TDy.Api.Spec

theorem ofCode_code (e : Entry) : Entry.ofCode e.code = some e := by cases e <;> rfl

theorem key_of_names {s : CondSetter} {k : CondKey} : names s k = true ↔ s.key = k := by
  cases s <;> cases k <;> simp [names, CondSetter.key]

theorem key_of_not_names {s : CondSetter} {k : CondKey} (h : names s k = false) : s.key ≠ k := by
  intro h2
  rw [key_of_names.2 h2] at h
  cases h

/-- What holds of a record and the number of blocks allocated so far. -/
structure Inv {κ : Type} (s : Store κ) (len : Nat) : Prop where
  lt : ∀ k c, (s.slots k).context = some c → c < len
  inj : ∀ k k' c, (s.slots k).context = some c → (s.slots k').context = some c → k = k'
  live : ∀ k c x, (s.slots k).context = some c → (x, c) ∉ s.released
  rel : ∀ p ∈ s.released, p.2 < len

theorem Inv.create {κ : Type} (len : Nat) : Inv (Store.create : Store κ) len where
  lt := by intro k c h; cases h
  inj := by intro k k' c h; cases h
  live := by intro k c x h; cases h
  rel := by intro p h; cases h

theorem Inv.mono {κ : Type} {s : Store κ} {len : Nat} (h : Inv s len) : Inv s (len + 1) where
  lt := fun k c hc => Nat.lt_succ_of_lt (h.lt k c hc)
  inj := h.inj
  live := h.live
  rel := fun p hp => Nat.lt_succ_of_lt (h.rel p hp)

theorem set_slots {κ : Type} [DecidableEq κ] (s : Store κ) (k : κ) (c f x : Option Nat) (k' : κ) :
    (set s k c f x).slots k' = if k' = k then { context := c, fn := f, dtor := x }
      else s.slots k' := rfl

theorem mem_set_released {κ : Type} [DecidableEq κ] (s : Store κ) (k : κ) (c f x : Option Nat)
    (p : Nat × Nat) (h : p ∈ (set s k c f x).released) :
    p ∈ s.released ∨ (s.slots k).context = some p.2 := by
  unfold Slots.set at h
  dsimp only at h
  split at h
  · rename_i c' d' hc hd
    rcases List.mem_append.1 h with h | h
    · exact Or.inl h
    · right
      rw [List.mem_singleton] at h
      rw [h, hc]
  · exact Or.inl h

theorem Inv.set {κ : Type} [DecidableEq κ] {s : Store κ} {len : Nat} (h : Inv s len) (k : κ)
    (f x : Option Nat) : Inv (set s k (some len) f x) (len + 1) where
  lt := by
    intro k' c hc
    rw [set_slots] at hc
    split at hc
    · cases hc; exact Nat.lt_succ_self _
    · exact Nat.lt_succ_of_lt (h.lt k' c hc)
  inj := by
    intro k1 k2 c h1 h2
    rw [set_slots] at h1 h2
    split at h1 <;> split at h2
    · rename_i a b; rw [a, b]
    · cases h1; exact absurd (h.lt _ _ h2) (Nat.lt_irrefl _)
    · cases h2; exact absurd (h.lt _ _ h1) (Nat.lt_irrefl _)
    · exact h.inj _ _ _ h1 h2
  live := by
    intro k' c y hc hm
    rw [set_slots] at hc
    rcases mem_set_released _ _ _ _ _ _ hm with hm | hm
    · split at hc
      · cases hc; exact absurd (h.rel _ hm) (Nat.lt_irrefl _)
      · exact h.live _ _ _ hc hm
    · split at hc
      · cases hc; exact absurd (h.lt _ _ hm) (Nat.lt_irrefl _)
      · rename_i hne; exact hne (h.inj _ _ _ hc hm)
  rel := by
    intro p hp
    rcases mem_set_released _ _ _ _ _ _ hp with hp | hp
    · exact Nat.lt_succ_of_lt (h.rel _ hp)
    · exact Nat.lt_succ_of_lt (h.lt _ _ hp)

/-- What holds of a dycore at all times. -/
structure Good (d : Dy) : Prop where
  cond : ∀ s, d.conditions = some s → Inv s d.blocks.length
  mat : ∀ s, d.matprop = some s → Inv s d.blocks.length

theorem Good.fresh : Good {} where
  cond := by intro s h; cases h
  mat := by intro s h; cases h

/-- A dycore that a call leaves behind, whether it succeeds or not. -/
def After (r : Res Dy) (d' : Dy) : Prop := r = .ok d' ∨ r = .err d'

theorem Good.storeCondition {d d' : Dy} (h : Good d) {k : CondKey} {e : Entry} {b : Block}
    (hd : After (storeCondition d k e b) d') : Good d' := by
  unfold Api.storeCondition at hd
  split at hd
  · rcases hd with hd | hd <;> cases hd
  · rename_i s hs
    rcases hd with hd | hd
    · cases hd
      exact ⟨fun t ht => by cases ht; simpa using (h.cond s hs).set k _ _,
        fun t ht => by simpa using (h.mat t ht).mono⟩
    · cases hd

theorem Good.selectCondition {d d' : Dy} (h : Good d) {s : CondSetter} {name : String}
    (hd : After (selectCondition d s name) d') : Good d' := by
  unfold Api.selectCondition at hd
  split at hd
  · exact h.storeCondition hd
  · rcases hd with hd | hd <;> cases hd; exact h
  · rcases hd with hd | hd <;> cases hd

theorem After.bind {r : Res Dy} {f : Dy → Res Dy} {d' : Dy} (h : After (r.bind f) d') :
    r = .err d' ∨ ∃ d1, r = .ok d1 ∧ After (f d1) d' := by
  cases r with
  | ok s => exact Or.inr ⟨s, rfl, h⟩
  | err s => rcases h with h | h <;> cases h; exact Or.inl rfl
  | ub => rcases h with h | h <;> cases h

theorem After.bindIgnore {r : Res Dy} {f : Dy → Res Dy} {d' : Dy} (h : After (r.bindIgnore f) d') :
    ∃ d1, After r d1 ∧ After (f d1) d' := by
  cases r with
  | ok s => exact ⟨s, Or.inl rfl, h⟩
  | err s => exact ⟨s, Or.inr rfl, h⟩
  | ub => rcases h with h | h <;> cases h

theorem Good.readPressure {d d' : Dy} (h : Good d) {c : CmdLine} {next : Dy → Res Dy}
    (hn : ∀ e, Good e → After (next e) d' → Good d')
    (hd : After (readPressure c d next) d') : Good d' := by
  unfold Api.readPressure at hd
  split at hd
  · obtain ⟨d1, h1, h2⟩ := After.bindIgnore hd
    exact hn _ (h.selectCondition h1) h2
  · split at hd
    · rcases After.bind hd with h1 | ⟨d1, h1, h2⟩
      · exact h.storeCondition (Or.inr h1)
      · exact hn _ (h.storeCondition (Or.inl h1)) h2
    · exact hn _ h hd

theorem Good.readVelocity {d d' : Dy} (h : Good d) {c : CmdLine} {next : Dy → Res Dy}
    (hn : ∀ e, Good e → After (next e) d' → Good d')
    (hd : After (readVelocity c d next) d') : Good d' := by
  unfold Api.readVelocity at hd
  split at hd
  · obtain ⟨d1, h1, h2⟩ := After.bindIgnore hd
    exact hn _ (h.selectCondition h1) h2
  · split at hd
    · obtain ⟨d1, h1, h2⟩ := After.bindIgnore hd
      exact hn _ (h.storeCondition h1) h2
    · exact hn _ h hd

theorem Good.readTemperature {d d' : Dy} (h : Good d) {c : CmdLine} {next : Dy → Res Dy}
    (hn : ∀ e, Good e → After (next e) d' → Good d')
    (hd : After (readTemperature c d next) d') : Good d' := by
  unfold Api.readTemperature at hd
  split at hd
  · rcases After.bind hd with h1 | ⟨d1, h1, h2⟩
    · exact h.selectCondition (Or.inr h1)
    · exact hn _ (h.selectCondition (Or.inl h1)) h2
  · split at hd
    · obtain ⟨d1, h1, h2⟩ := After.bindIgnore hd
      exact hn _ (h.storeCondition h1) h2
    · exact hn _ h hd

theorem Good.setFromOptions {d d' : Dy} (h : Good d) {c : CmdLine}
    (hd : After (setFromOptions d c) d') : Good d' := by
  unfold Api.setFromOptions at hd
  split at hd
  · rcases hd with hd | hd <;> cases hd; exact h
  split at hd
  · rcases hd with hd | hd <;> cases hd; exact h
  have h0 : Good { d with conditions := some Store.create } :=
    ⟨fun s hs => by cases hs; exact Inv.create _, h.mat⟩
  refine h0.readPressure ?_ hd
  intro e he h1
  refine he.readVelocity ?_ h1
  intro e2 he2 h2
  refine he2.readTemperature ?_ h2
  intro e3 he3 h3
  split at h3
  · rcases h3 with h3 | h3 <;> cases h3; exact he3
  · rcases h3 with h3 | h3 <;> cases h3
    exact ⟨he3.cond, fun s hs => by cases hs; exact Inv.create _⟩

theorem Good.step {d d' : Dy} (h : Good d) {c : Call} (hd : After (step d c) d') : Good d' := by
  cases c with
  | register name f =>
    unfold Api.step at hd
    dsimp only at hd
    split at hd
    · rcases hd with hd | hd <;> cases hd; exact ⟨h.cond, h.mat⟩
    · rcases hd with hd | hd <;> cases hd; exact ⟨h.cond, h.mat⟩
    · rcases hd with hd | hd <;> cases hd
  | setCondition s f => exact h.storeCondition hd
  | selectCondition s name => exact h.selectCondition hd
  | setMaterial stack k kind a =>
    unfold Api.step Api.setMaterial at hd
    dsimp only at hd
    split at hd
    · rcases hd with hd | hd <;> cases hd
    · rename_i s hs
      rcases hd with hd | hd
      · cases hd
        exact ⟨fun t ht => by simpa using (h.cond t ht).mono,
          fun t ht => by cases ht; simpa using (h.mat s hs).set k _ _⟩
      · cases hd
  | setFromOptions c => exact h.setFromOptions hd
  | setup => rcases hd with hd | hd <;> cases hd; exact ⟨h.cond, h.mat⟩

theorem run_cons {d d' : Dy} {c : Call} {cs : List Call} (h : run d (c :: cs) = some d') :
    ∃ d1, After (step d c) d1 ∧ run d1 cs = some d' := by
  unfold run at h
  split at h
  · rename_i e he; exact ⟨e, Or.inl he, h⟩
  · rename_i e he; exact ⟨e, Or.inr he, h⟩
  · cases h

theorem run_append {d d' : Dy} {cs es : List Call} (h : run d (cs ++ es) = some d') :
    ∃ d1, run d cs = some d1 ∧ run d1 es = some d' := by
  induction cs generalizing d with
  | nil => exact ⟨d, rfl, h⟩
  | cons c cs ih =>
    obtain ⟨d1, h1, h2⟩ := run_cons h
    obtain ⟨d2, h3, h4⟩ := ih h2
    refine ⟨d2, ?_, h4⟩
    unfold run
    rcases h1 with h1 | h1 <;> rw [h1] <;> exact h3

theorem Good.run {d d' : Dy} (h : Good d) {cs : List Call} (hr : run d cs = some d') :
    Good d' := by
  induction cs generalizing d with
  | nil => cases hr; exact h
  | cons c cs ih =>
    obtain ⟨d1, h1, h2⟩ := run_cons hr
    exact ih (h.step h1) h2

/-! ## What is stored for one condition -/

/-- The condition `k` is evaluated by `e` with the block `b`. -/
def Holds (d : Dy) (k : CondKey) (e : Entry) (b : Block) : Prop :=
  ∃ s c, d.conditions = some s ∧
    s.slots k = { context := some c, fn := some e.code, dtor := some tdyFree } ∧
    d.blocks[c]? = some b

theorem Holds.eval {d : Dy} {k : CondKey} {e : Entry} {b : Block} (hg : Good d)
    (h : Holds d k e b) (U : UserFns) (tmp : Nat → Rat) (n : Nat) (x v : Nat → Rat) :
    evalCondition U tmp d k n x v = runEntry U tmp e b n x v := by
  obtain ⟨s, c, hs, hk, hb⟩ := h
  have hl := (hg.cond s hs).live k c tdyFree (by rw [hk])
  simp [evalCondition, hs, conditionsCompute, hk, callStored, ofCode_code, hl, hb]

theorem Holds.storeCondition {d d' : Dy} {k : CondKey} {e : Entry} {b : Block}
    (h : After (storeCondition d k e b) d') : Holds d' k e b := by
  unfold Api.storeCondition at h
  split at h
  · rcases h with h | h <;> cases h
  · rename_i s hs
    rcases h with h | h
    · cases h
      exact ⟨_, d.blocks.length, rfl, by simp [set_slots], by simp⟩
    · cases h

theorem getElem?_snoc {α : Type} {l : List α} {c : Nat} {b : α} (a : α) (h : l[c]? = some b) :
    (l ++ [a])[c]? = some b := by
  have hc : c < l.length := by
    rcases Nat.lt_or_ge c l.length with h2 | h2
    · exact h2
    · rw [List.getElem?_eq_none h2] at h; cases h
  rw [List.getElem?_append_left hc]; exact h

theorem Holds.storeOther {d d' : Dy} {k k' : CondKey} {e e' : Entry} {b b' : Block}
    (h : Holds d k e b) (hne : k' ≠ k)
    (hd : After (Api.storeCondition d k' e' b') d') : Holds d' k e b := by
  obtain ⟨s, c, hs, hk, hb⟩ := h
  unfold Api.storeCondition at hd
  rw [hs] at hd
  dsimp only at hd
  rcases hd with hd | hd
  · cases hd
    exact ⟨_, c, rfl, by rw [set_slots, if_neg (Ne.symm hne)]; exact hk, getElem?_snoc _ hb⟩
  · cases hd

theorem Holds.step {d d' : Dy} {k : CondKey} {e : Entry} {b : Block} (h : Holds d k e b)
    {c : Call} (hc : Leaves c k) (hd : After (Api.step d c) d') : Holds d' k e b := by
  cases c with
  | register name f =>
    obtain ⟨s, c, hs, hk, hb⟩ := h
    unfold Api.step at hd
    dsimp only at hd
    split at hd
    · rcases hd with hd | hd <;> cases hd; exact ⟨s, c, hs, hk, hb⟩
    · rcases hd with hd | hd <;> cases hd; exact ⟨s, c, hs, hk, hb⟩
    · rcases hd with hd | hd <;> cases hd
  | setCondition s f => exact h.storeOther (key_of_not_names hc) hd
  | selectCondition s name =>
    unfold Api.step Api.selectCondition at hd
    dsimp only at hd
    split at hd
    · exact h.storeOther (key_of_not_names hc) hd
    · rcases hd with hd | hd <;> cases hd; exact h
    · rcases hd with hd | hd <;> cases hd
  | setMaterial stack k kind a =>
    obtain ⟨s, c, hs, hk, hb⟩ := h
    unfold Api.step Api.setMaterial at hd
    dsimp only at hd
    split at hd
    · rcases hd with hd | hd <;> cases hd
    · rcases hd with hd | hd
      · cases hd
        exact ⟨s, c, hs, hk, getElem?_snoc _ hb⟩
      · cases hd
  | setFromOptions c => exact hc.elim
  | setup =>
    obtain ⟨s, c, hs, hk, hb⟩ := h
    rcases hd with hd | hd <;> cases hd; exact ⟨s, c, hs, hk, hb⟩

theorem Holds.run {d d' : Dy} {k : CondKey} {e : Entry} {b : Block} (h : Holds d k e b)
    {cs : List Call} (hc : ∀ c ∈ cs, Leaves c k) (hd : Api.run d cs = some d') :
    Holds d' k e b := by
  induction cs generalizing d with
  | nil => cases hd; exact h
  | cons c cs ih =>
    obtain ⟨d1, h1, h2⟩ := run_cons hd
    exact ih (h.step (hc c (List.mem_cons_self ..)) h1)
      (fun c' h' => hc c' (List.mem_cons_of_mem _ h')) h2

/-! ## What is stored for one material property -/

/-- The property `k` is evaluated by `e` with the block `b`. -/
def HoldsM (d : Dy) (k : MatKey) (e : Entry) (b : Block) : Prop :=
  ∃ s c, d.matprop = some s ∧
    s.slots k = { context := some c, fn := some e.code, dtor := some tdyFree } ∧
    d.blocks[c]? = some b

theorem HoldsM.eval {d : Dy} {k : MatKey} {e : Entry} {b : Block} (hg : Good d)
    (h : HoldsM d k e b) (U : UserFns) (tmp : Nat → Rat) (n : Nat) (x v : Nat → Rat) :
    evalMaterial U tmp d k n x v = runEntry U tmp e b n x v := by
  obtain ⟨s, c, hs, hk, hb⟩ := h
  have hl := (hg.mat s hs).live k c tdyFree (by rw [hk])
  simp [evalMaterial, hs, materialPropCompute, hk, callStored, ofCode_code, hl, hb]

theorem HoldsM.setMaterial {d d' : Dy} {stack : Nat → Rat} {k : MatKey} {kind : Kind} {a : MatValue}
    (h : After (Api.setMaterial d stack k kind a) d') :
    HoldsM d' k (matEntry kind a) (matBlock stack kind a) := by
  unfold Api.setMaterial at h
  split at h
  · rcases h with h | h <;> cases h
  · rename_i s hs
    rcases h with h | h
    · cases h
      exact ⟨_, d.blocks.length, rfl, by simp [set_slots], by simp⟩
    · cases h

theorem HoldsM.storeCondition {d d' : Dy} {k : MatKey} {k' : CondKey} {e e' : Entry} {b b' : Block}
    (h : HoldsM d k e b) (hd : After (Api.storeCondition d k' e' b') d') : HoldsM d' k e b := by
  obtain ⟨s, c, hs, hk, hb⟩ := h
  unfold Api.storeCondition at hd
  split at hd
  · rcases hd with hd | hd <;> cases hd
  · rcases hd with hd | hd
    · cases hd
      exact ⟨s, c, hs, hk, getElem?_snoc _ hb⟩
    · cases hd

theorem HoldsM.step {d d' : Dy} {k : MatKey} {e : Entry} {b : Block} (h : HoldsM d k e b)
    {c : Call} (hc : LeavesMaterial c k) (hd : After (Api.step d c) d') : HoldsM d' k e b := by
  cases c with
  | register name f =>
    obtain ⟨s, c, hs, hk, hb⟩ := h
    unfold Api.step at hd
    dsimp only at hd
    split at hd
    · rcases hd with hd | hd <;> cases hd; exact ⟨s, c, hs, hk, hb⟩
    · rcases hd with hd | hd <;> cases hd; exact ⟨s, c, hs, hk, hb⟩
    · rcases hd with hd | hd <;> cases hd
  | setCondition s f => exact h.storeCondition hd
  | selectCondition s name =>
    unfold Api.step Api.selectCondition at hd
    dsimp only at hd
    split at hd
    · exact h.storeCondition hd
    · rcases hd with hd | hd <;> cases hd; exact h
    · rcases hd with hd | hd <;> cases hd
  | setMaterial stack k' kind a =>
    obtain ⟨s, c, hs, hk, hb⟩ := h
    unfold Api.step Api.setMaterial at hd
    rw [hs] at hd
    dsimp only at hd
    rcases hd with hd | hd
    · cases hd
      refine ⟨_, c, rfl, ?_, getElem?_snoc _ hb⟩
      have hne : k ≠ k' := fun h2 => hc h2.symm
      rw [set_slots, if_neg hne]; exact hk
    · cases hd
  | setFromOptions c => exact hc.elim
  | setup =>
    obtain ⟨s, c, hs, hk, hb⟩ := h
    rcases hd with hd | hd <;> cases hd; exact ⟨s, c, hs, hk, hb⟩

theorem HoldsM.run {d d' : Dy} {k : MatKey} {e : Entry} {b : Block} (h : HoldsM d k e b)
    {cs : List Call} (hc : ∀ c ∈ cs, LeavesMaterial c k) (hd : Api.run d cs = some d') :
    HoldsM d' k e b := by
  induction cs generalizing d with
  | nil => cases hd; exact h
  | cons c cs ih =>
    obtain ⟨d1, h1, h2⟩ := run_cons hd
    exact ih (h.step (hc c (List.mem_cons_self ..)) h1)
      (fun c' h' => hc c' (List.mem_cons_of_mem _ h')) h2

/-! ## Registered names -/

theorem registered_append (name : String) (h g : List Call) :
    registered name (h ++ g) = (registered name g).or (registered name h) := by
  induction h with
  | nil => cases hg : registered name g <;> simp [registered, hg]
  | cons c h ih =>
    cases c with
    | register n f =>
      simp only [List.cons_append, registered, ih]
      cases registered name g <;> cases registered name h <;> simp [Option.or]
    | _ => simp only [List.cons_append, registered, ih]

/-- The library after a history. -/
def Names (l : Lib.Lib) (h : List Call) : Prop :=
  (l = {} ∧ ∀ name, registered name h = none) ∨
  ∃ m, l.funcs = .live m ∧ ∀ name, (m.find? (fun p => p.1 = name)).map (·.2) = registered name h

theorem find_filter_ne (m : List (String × Nat)) (n name : String) (h : n ≠ name) :
    (m.filter (fun p => p.1 ≠ n)).find? (fun p => p.1 = name) = m.find? (fun p => p.1 = name) := by
  induction m with
  | nil => rfl
  | cons p m ih =>
    by_cases h1 : p.1 = n
    · have h2 : p.1 ≠ name := fun h2 => h (h1.symm.trans h2)
      simp [List.filter, h1, List.find?, h] at ih ⊢
      exact ih
    · by_cases h2 : p.1 = name
      · have h3 : name ≠ n := Ne.symm h
        simp [List.filter, List.find?, h2, h3]
      · simp [List.filter, h1, List.find?, h2] at ih ⊢
        exact ih

theorem registered_single (name n : String) (f : Nat) :
    registered name [.register n f] = if n = name then some f else none := rfl

theorem registered_one (name : String) (c : Call)
    (h : ∀ n f, c ≠ .register n f) : registered name [c] = none := by
  cases c with
  | register n f => exact absurd rfl (h n f)
  | _ => rfl

theorem Names.same {l : Lib.Lib} {h : List Call} (hn : Names l h) (c : Call)
    (hc : ∀ n f, c ≠ .register n f) : Names l (h ++ [c]) := by
  rcases hn with ⟨h1, h2⟩ | ⟨m, h1, h2⟩
  · refine Or.inl ⟨h1, fun name => ?_⟩
    rw [registered_append, h2, registered_one name c hc]; rfl
  · refine Or.inr ⟨m, h1, fun name => ?_⟩
    rw [registered_append, h2, registered_one name c hc]; simp

theorem lib_storeCondition {d d' : Dy} {k : CondKey} {e : Entry} {b : Block}
    (hd : After (Api.storeCondition d k e b) d') : d'.lib = d.lib := by
  unfold Api.storeCondition at hd
  split at hd
  · rcases hd with hd | hd <;> cases hd
  · rcases hd with hd | hd <;> cases hd; rfl

theorem lib_selectCondition {d d' : Dy} {s : CondSetter} {name : String}
    (hd : After (Api.selectCondition d s name) d') : d'.lib = d.lib := by
  unfold Api.selectCondition at hd
  split at hd
  · exact lib_storeCondition hd
  · rcases hd with hd | hd <;> cases hd; rfl
  · rcases hd with hd | hd <;> cases hd

theorem lib_readPressure {d d' : Dy} {c : CmdLine} {next : Dy → Res Dy}
    (hn : ∀ e, After (next e) d' → d'.lib = e.lib)
    (hd : After (Api.readPressure c d next) d') : d'.lib = d.lib := by
  unfold Api.readPressure at hd
  split at hd
  · obtain ⟨d1, h1, h2⟩ := After.bindIgnore hd
    rw [hn _ h2, lib_selectCondition h1]
  · split at hd
    · rcases After.bind hd with h1 | ⟨d1, h1, h2⟩
      · exact lib_storeCondition (Or.inr h1)
      · rw [hn _ h2, lib_storeCondition (Or.inl h1)]
    · exact hn _ hd

theorem lib_readVelocity {d d' : Dy} {c : CmdLine} {next : Dy → Res Dy}
    (hn : ∀ e, After (next e) d' → d'.lib = e.lib)
    (hd : After (Api.readVelocity c d next) d') : d'.lib = d.lib := by
  unfold Api.readVelocity at hd
  split at hd
  · obtain ⟨d1, h1, h2⟩ := After.bindIgnore hd
    rw [hn _ h2, lib_selectCondition h1]
  · split at hd
    · obtain ⟨d1, h1, h2⟩ := After.bindIgnore hd
      rw [hn _ h2, lib_storeCondition h1]
    · exact hn _ hd

theorem lib_readTemperature {d d' : Dy} {c : CmdLine} {next : Dy → Res Dy}
    (hn : ∀ e, After (next e) d' → d'.lib = e.lib)
    (hd : After (Api.readTemperature c d next) d') : d'.lib = d.lib := by
  unfold Api.readTemperature at hd
  split at hd
  · rcases After.bind hd with h1 | ⟨d1, h1, h2⟩
    · exact lib_selectCondition (Or.inr h1)
    · rw [hn _ h2, lib_selectCondition (Or.inl h1)]
  · split at hd
    · obtain ⟨d1, h1, h2⟩ := After.bindIgnore hd
      rw [hn _ h2, lib_storeCondition h1]
    · exact hn _ hd

theorem lib_setFromOptions {d d' : Dy} {c : CmdLine}
    (hd : After (Api.setFromOptions d c) d') : d'.lib = d.lib := by
  unfold Api.setFromOptions at hd
  split at hd
  · rcases hd with hd | hd <;> cases hd; rfl
  split at hd
  · rcases hd with hd | hd <;> cases hd; rfl
  refine (lib_readPressure ?_ hd).trans rfl
  intro e h1
  refine lib_readVelocity ?_ h1
  intro e2 h2
  refine lib_readTemperature ?_ h2
  intro e3 h3
  split at h3
  · rcases h3 with h3 | h3 <;> cases h3; rfl
  · rcases h3 with h3 | h3 <;> cases h3; rfl

theorem Names.register {l l' : Lib.Lib} {h : List Call} (hn : Names l h) {n : String} {f : Nat}
    (hr : Lib.registerFn l n f = .ok l') : Names l' (h ++ [.register n f]) := by
  right
  rcases hn with ⟨h1, h2⟩ | ⟨m, h1, h2⟩
  · subst h1
    have : l'.funcs = .live [(n, f)] := by
      have h3 : Lib.registerFn {} n f = .ok l' := hr
      simp only [Lib.registerFn, Lib.onFinalize, Lib.storeFn, Res.bind] at h3
      simp at h3
      rw [← h3]
    refine ⟨_, this, fun name => ?_⟩
    rw [registered_append, h2, registered_single]
    by_cases h4 : n = name <;> simp [List.find?, h4]
  · unfold Lib.registerFn at hr
    rw [h1] at hr
    dsimp only at hr
    cases hr
    refine ⟨_, rfl, fun name => ?_⟩
    rw [registered_append, registered_single, ← h2]
    by_cases h4 : n = name
    · subst h4; simp [List.find?]
    · rw [if_neg h4]
      have := find_filter_ne m n name h4
      simp only [List.find?, h4, decide_false]
      rw [this]; rfl

theorem registerFn_ok (l : Lib.Lib) {h : List Call} (hn : Names l h) (n : String) (f : Nat) :
    ∃ l', Lib.registerFn l n f = .ok l' := by
  rcases hn with ⟨h1, h2⟩ | ⟨m, h1, h2⟩
  · subst h1
    simp [Lib.registerFn, Lib.onFinalize, Lib.storeFn, Res.bind]
  · unfold Lib.registerFn
    rw [h1]
    exact ⟨_, rfl⟩

theorem Names.step {d d' : Dy} {h : List Call} (hn : Names d.lib h) {c : Call}
    (hd : After (Api.step d c) d') : Names d'.lib (h ++ [c]) := by
  cases c with
  | register name f =>
    obtain ⟨l', hl⟩ := registerFn_ok d.lib hn name f
    unfold Api.step at hd
    dsimp only at hd
    rw [hl] at hd
    rcases hd with hd | hd <;> cases hd
    exact hn.register hl
  | setCondition s f =>
    rw [lib_storeCondition hd]; exact hn.same _ (by intro n f h; cases h)
  | selectCondition s name =>
    rw [lib_selectCondition hd]; exact hn.same _ (by intro n f h; cases h)
  | setMaterial stack k kind a =>
    have : d'.lib = d.lib := by
      unfold Api.step Api.setMaterial at hd
      dsimp only at hd
      split at hd
      · rcases hd with hd | hd <;> cases hd
      · rcases hd with hd | hd <;> cases hd; rfl
    rw [this]; exact hn.same _ (by intro n f h; cases h)
  | setFromOptions c =>
    rw [lib_setFromOptions hd]; exact hn.same _ (by intro n f h; cases h)
  | setup =>
    rcases hd with hd | hd <;> cases hd
    exact hn.same _ (by intro n f h; cases h)

theorem Names.run {d d' : Dy} {h cs : List Call} (hn : Names d.lib h)
    (hd : Api.run d cs = some d') : Names d'.lib (h ++ cs) := by
  induction cs generalizing d h with
  | nil => cases hd; simpa using hn
  | cons c cs ih =>
    obtain ⟨d1, h1, h2⟩ := run_cons hd
    have := ih (hn.step h1) h2
    simpa using this

theorem getFn_run {d : Dy} {h : List Call} (hd : Api.run {} h = some d) (name : String) :
    Lib.getFn d.lib name =
      match registered name h with
      | some f => .found f
      | none => .notFound := by
  have hn : Names d.lib ([] ++ h) := Names.run (Or.inl ⟨rfl, fun _ => rfl⟩) hd
  rw [List.nil_append] at hn
  rcases hn with ⟨h1, h2⟩ | ⟨m, h1, h2⟩
  · rw [h1, h2]; rfl
  · unfold Lib.getFn
    rw [h1, ← h2]
    dsimp only
    cases m.find? (fun p => decide (p.1 = name)) <;> rfl

/-! ## The command line -/

/-- The function and the block stored for what was asked. -/
def Stored (d : Dy) (k : CondKey) (a : Asked) : Prop :=
  match a with
  | .function f => ∃ e, (e = .wrapper ∨ e = .wrapperInteger) ∧
      Holds d k e { func := some f, value := fun _ => 0 }
  | .constant p => Holds d k .constantBoundary { func := none, value := fun _ => p }

theorem Stored.mapHolds {d d' : Dy} {k : CondKey} {a : Asked} (h : Stored d k a)
    (hm : ∀ e b, Holds d k e b → Holds d' k e b) : Stored d' k a := by
  cases a with
  | function f =>
    obtain ⟨e, he, hh⟩ := h
    exact ⟨e, he, hm _ _ hh⟩
  | constant p => exact hm _ _ h

theorem entry_wrapper (s : CondSetter) : s.entry = .wrapper ∨ s.entry = .wrapperInteger := by
  cases s <;> simp [CondSetter.entry]

theorem Stored.set {d d' : Dy} {s : CondSetter} {f : Nat}
    (h : After (Api.setCondition d s f) d') : Stored d' s.key (.function f) :=
  ⟨s.entry, entry_wrapper s, Holds.storeCondition h⟩

theorem Stored.select {d d' : Dy} {s : CondSetter} {name : String} {f : Nat}
    (hf : Lib.getFn d.lib name = .found f)
    (h : After (Api.selectCondition d s name) d') : Stored d' s.key (.function f) := by
  unfold Api.selectCondition at h
  rw [hf] at h
  exact Stored.set h

theorem Stored.other {d d' : Dy} {k k' : CondKey} {a : Asked} {e : Entry} {b : Block}
    (h : Stored d k a) (hne : k' ≠ k) (hd : After (Api.storeCondition d k' e b) d') :
    Stored d' k a := h.mapHolds fun _ _ hh => hh.storeOther hne hd

theorem Stored.selectOther {d d' : Dy} {k : CondKey} {a : Asked} {s : CondSetter} {name : String}
    (h : Stored d k a) (hne : s.key ≠ k) (hd : After (Api.selectCondition d s name) d') :
    Stored d' k a := by
  unfold Api.selectCondition at hd
  split at hd
  · exact h.other hne hd
  · rcases hd with hd | hd <;> cases hd; exact h
  · rcases hd with hd | hd <;> cases hd

theorem Stored.run {d d' : Dy} {k : CondKey} {a : Asked} (h : Stored d k a)
    {cs : List Call} (hc : ∀ c ∈ cs, Leaves c k) (hd : Api.run d cs = some d') :
    Stored d' k a := h.mapHolds fun _ _ hh => hh.run hc hd

theorem constantScalar_eq {α : Type} (value : α) (n : Nat) (f : Nat → α) (i : Nat) :
    Slots.constantScalar value n f i = if i < n then value else f i := by
  unfold Slots.constantScalar
  rw [forN_fill]

theorem Stored.eval {d : Dy} {k : CondKey} {a : Asked} (hg : Good d) (h : Stored d k a)
    (U : UserFns) (tmp : Nat → Rat) (n : Nat) (x v : Nat → Rat) :
    ∃ w, evalCondition U tmp d k n x v = some w ∧ a.gives U n x v w := by
  cases a with
  | function f =>
    obtain ⟨e, he, hh⟩ := h
    rw [hh.eval hg]
    rcases he with he | he <;> subst he <;> exact ⟨_, rfl, rfl⟩
  | constant p =>
    have hh : Holds d k .constantBoundary { func := none, value := fun _ => p } := h
    rw [hh.eval hg]
    exact ⟨_, rfl, fun i => constantScalar_eq p n v i⟩

theorem skip_velocity {d d' : Dy} {c : CmdLine} {k : CondKey} {a : Asked} {next : Dy → Res Dy}
    (h : Stored d k a) (hk : CondKey.boundaryVelocity ≠ k)
    (hn : ∀ e, Stored e k a → After (next e) d' → Stored d' k a)
    (hd : After (Api.readVelocity c d next) d') : Stored d' k a := by
  unfold Api.readVelocity at hd
  split at hd
  · obtain ⟨d1, h1, h2⟩ := After.bindIgnore hd
    exact hn _ (h.selectOther (s := .boundaryVelocity) hk h1) h2
  · split at hd
    · obtain ⟨d1, h1, h2⟩ := After.bindIgnore hd
      exact hn _ (h.other hk h1) h2
    · exact hn _ h hd

theorem skip_temperature {d d' : Dy} {c : CmdLine} {k : CondKey} {a : Asked} {next : Dy → Res Dy}
    (h : Stored d k a) (hk : CondKey.boundaryTemperature ≠ k)
    (hn : ∀ e, Stored e k a → After (next e) d' → Stored d' k a)
    (hd : After (Api.readTemperature c d next) d') : Stored d' k a := by
  unfold Api.readTemperature at hd
  split at hd
  · rcases After.bind hd with h1 | ⟨d1, h1, h2⟩
    · exact h.selectOther (s := .boundaryTemperature) hk (Or.inr h1)
    · exact hn _ (h.selectOther (s := .boundaryTemperature) hk (Or.inl h1)) h2
  · split at hd
    · obtain ⟨d1, h1, h2⟩ := After.bindIgnore hd
      exact hn _ (h.other hk h1) h2
    · exact hn _ h hd

theorem stored_pressure {d d' : Dy} {c : CmdLine} {before : List Call} {a : Asked}
    {next : Dy → Res Dy}
    (hl : ∀ name f, registered name before = some f → Lib.getFn d.lib name = .found f)
    (ha : OptionAsks before c.pressureFunc c.pressureValue a)
    (hn : ∀ e, Stored e .boundaryPressure a → After (next e) d' → Stored d' .boundaryPressure a)
    (hd : After (Api.readPressure c d next) d') : Stored d' .boundaryPressure a := by
  unfold Api.readPressure at hd
  unfold OptionAsks at ha
  split at hd
  · rename_i name hname
    rw [hname] at ha
    obtain ⟨f, hf, rfl⟩ := ha
    obtain ⟨d1, h1, h2⟩ := After.bindIgnore hd
    exact hn _ (Stored.select (s := .boundaryPressure) (hl _ _ hf) h1) h2
  · rename_i hname
    rw [hname] at ha
    obtain ⟨p, hp, rfl⟩ := ha
    rw [hp] at hd
    rcases After.bind hd with h1 | ⟨d1, h1, h2⟩
    · exact Holds.storeCondition (Or.inr h1)
    · exact hn _ (Holds.storeCondition (Or.inl h1)) h2

theorem stored_velocity {d d' : Dy} {c : CmdLine} {before : List Call} {a : Asked}
    {next : Dy → Res Dy}
    (hl : ∀ name f, registered name before = some f → Lib.getFn d.lib name = .found f)
    (ha : OptionAsks before c.velocityFunc c.velocityValue a)
    (hn : ∀ e, Stored e .boundaryVelocity a → After (next e) d' → Stored d' .boundaryVelocity a)
    (hd : After (Api.readVelocity c d next) d') : Stored d' .boundaryVelocity a := by
  unfold Api.readVelocity at hd
  unfold OptionAsks at ha
  split at hd
  · rename_i name hname
    rw [hname] at ha
    obtain ⟨f, hf, rfl⟩ := ha
    obtain ⟨d1, h1, h2⟩ := After.bindIgnore hd
    exact hn _ (Stored.select (s := .boundaryVelocity) (hl _ _ hf) h1) h2
  · rename_i hname
    rw [hname] at ha
    obtain ⟨p, hp, rfl⟩ := ha
    rw [hp] at hd
    obtain ⟨d1, h1, h2⟩ := After.bindIgnore hd
    exact hn _ (Holds.storeCondition h1) h2

theorem stored_temperature {d d' : Dy} {c : CmdLine} {before : List Call} {a : Asked}
    {next : Dy → Res Dy}
    (hl : ∀ name f, registered name before = some f → Lib.getFn d.lib name = .found f)
    (ha : OptionAsks before c.temperatureFunc c.temperatureValue a)
    (hn : ∀ e, Stored e .boundaryTemperature a → After (next e) d' →
      Stored d' .boundaryTemperature a)
    (hd : After (Api.readTemperature c d next) d') : Stored d' .boundaryTemperature a := by
  unfold Api.readTemperature at hd
  unfold OptionAsks at ha
  split at hd
  · rename_i name hname
    rw [hname] at ha
    obtain ⟨f, hf, rfl⟩ := ha
    rcases After.bind hd with h1 | ⟨d1, h1, h2⟩
    · exact Stored.select (s := .boundaryTemperature) (hl _ _ hf) (Or.inr h1)
    · exact hn _ (Stored.select (s := .boundaryTemperature) (hl _ _ hf) (Or.inl h1)) h2
  · rename_i hname
    rw [hname] at ha
    obtain ⟨p, hp, rfl⟩ := ha
    rw [hp] at hd
    obtain ⟨d1, h1, h2⟩ := After.bindIgnore hd
    exact hn _ (Holds.storeCondition h1) h2

theorem lib_cont_pressure {d : Dy} {c : CmdLine} {next : Dy → Res Dy} {d' : Dy}
    (hd : After (Api.readPressure c d next) d') :
    (∃ e, e.lib = d.lib ∧ After (next e) d') ∨ Api.readPressure c d next = .err d' := by
  unfold Api.readPressure at hd ⊢
  split at hd
  · obtain ⟨d1, h1, h2⟩ := After.bindIgnore hd
    exact Or.inl ⟨d1, lib_selectCondition h1, h2⟩
  · split at hd
    · rcases After.bind hd with h1 | ⟨d1, h1, h2⟩
      · exact Or.inr (by simp [h1, Res.bind])
      · exact Or.inl ⟨d1, lib_storeCondition (Or.inl h1), h2⟩
    · exact Or.inl ⟨d, rfl, hd⟩

theorem lib_cont_velocity {d : Dy} {c : CmdLine} {next : Dy → Res Dy} {d' : Dy}
    (hd : After (Api.readVelocity c d next) d') :
    ∃ e, e.lib = d.lib ∧ After (next e) d' := by
  unfold Api.readVelocity at hd
  split at hd
  · obtain ⟨d1, h1, h2⟩ := After.bindIgnore hd
    exact ⟨d1, lib_selectCondition h1, h2⟩
  · split at hd
    · obtain ⟨d1, h1, h2⟩ := After.bindIgnore hd
      exact ⟨d1, lib_storeCondition h1, h2⟩
    · exact ⟨d, rfl, hd⟩

theorem stored_last {d : Dy} {c : CmdLine} {k : CondKey} {a : Asked} {d' : Dy} (h : Stored d k a)
    (hd : After (if c.failsLate then Res.err d else .ok { d with matprop := some Store.create })
      d') : Stored d' k a := by
  split at hd
  · rcases hd with hd | hd <;> cases hd; exact h
  · rcases hd with hd | hd <;> cases hd
    exact h.mapHolds fun e b hh => hh

theorem stored_options {d d' : Dy} {c : CmdLine} {before : List Call} {k : CondKey} {a : Asked}
    (hl : ∀ name f, registered name before = some f → Lib.getFn d.lib name = .found f)
    (ha : CmdAsks before c k a) (hd : Api.setFromOptions d c = .ok d') : Stored d' k a := by
  have hne : Api.setFromOptions d c ≠ .err d' := by
    rw [hd]; intro h2; cases h2
  have hd : After (Api.setFromOptions d c) d' := Or.inl hd
  unfold Api.setFromOptions at hd hne
  split at hd
  · rename_i h1; rw [if_pos h1] at hne; rcases hd with hd | hd <;> cases hd; exact absurd rfl hne
  rename_i h1
  rw [if_neg h1] at hne
  split at hd
  · rename_i h2; rw [if_pos h2] at hne; rcases hd with hd | hd <;> cases hd; exact absurd rfl hne
  rename_i h2
  rw [if_neg h2] at hne
  cases k with
  | boundaryPressure =>
    refine stored_pressure (before := before) ?_ ha ?_ hd
    · exact hl
    intro e he h
    refine skip_velocity he (by decide) ?_ h
    intro e2 he2 h
    refine skip_temperature he2 (by decide) ?_ h
    intro e3 he3 h
    exact stored_last he3 h
  | boundaryVelocity =>
    rcases lib_cont_pressure hd with ⟨e, he, h⟩ | h
    · refine stored_velocity (before := before) ?_ ha ?_ h
      · rw [he]; exact hl
      intro e2 he2 h
      refine skip_temperature he2 (by decide) ?_ h
      intro e3 he3 h
      exact stored_last he3 h
    · exact absurd h hne
  | boundaryTemperature =>
    rcases lib_cont_pressure hd with ⟨e, he, h⟩ | h
    · obtain ⟨e2, he2, h⟩ := lib_cont_velocity h
      refine stored_temperature (before := before) ?_ ha ?_ h
      · rw [he2, he]; exact hl
      intro e3 he3 h
      exact stored_last he3 h
    · exact absurd h hne
  | forcing => exact ha.elim
  | energyForcing => exact ha.elim
  | salinitySource => exact ha.elim
  | boundaryPressureType => exact ha.elim
  | boundarySalineConc => exact ha.elim

/-! ## What the command line forgets -/

/-- The condition `k` is not set. -/
def Unset (d : Dy) (k : CondKey) : Prop :=
  ∃ s, d.conditions = some s ∧ s.slots k = {}

theorem Unset.eval {d : Dy} {k : CondKey} (h : Unset d k) (U : UserFns) (tmp : Nat → Rat) (n : Nat)
    (x v : Nat → Rat) : evalCondition U tmp d k n x v = none := by
  obtain ⟨s, hs, hk⟩ := h
  simp [evalCondition, hs, conditionsCompute, hk]

theorem Unset.store {d d' : Dy} {k k' : CondKey} {e : Entry} {b : Block} (h : Unset d k)
    (hne : k' ≠ k) (hd : After (Api.storeCondition d k' e b) d') : Unset d' k := by
  obtain ⟨s, hs, hk⟩ := h
  unfold Api.storeCondition at hd
  rw [hs] at hd
  dsimp only at hd
  rcases hd with hd | hd
  · cases hd
    exact ⟨_, rfl, by rw [set_slots, if_neg (Ne.symm hne)]; exact hk⟩
  · cases hd

theorem Unset.select {d d' : Dy} {k : CondKey} {s : CondSetter} {name : String} (h : Unset d k)
    (hne : s.key ≠ k ∨ Lib.getFn d.lib name = .notFound)
    (hd : After (Api.selectCondition d s name) d') : Unset d' k := by
  unfold Api.selectCondition at hd
  split at hd
  · rename_i f hf
    rcases hne with hne | hne
    · exact h.store hne hd
    · rw [hf] at hne; cases hne
  · rcases hd with hd | hd <;> cases hd; exact h
  · rcases hd with hd | hd <;> cases hd

/-- The command line does not set `k`: neither a name that is known nor, without a name, a value. -/
def Silent (l : Lib.Lib) (func : Option String) (value : Option Rat) : Prop :=
  match func with
  | some name => Lib.getFn l name = .notFound
  | none => value = none

theorem unset_pressure {d d' : Dy} {c : CmdLine} {k : CondKey} {next : Dy → Res Dy}
    (h : Unset d k)
    (hk : CondKey.boundaryPressure ≠ k ∨ Silent d.lib c.pressureFunc c.pressureValue)
    (hn : ∀ e, Unset e k → e.lib = d.lib → After (next e) d' → Unset d' k)
    (hd : After (Api.readPressure c d next) d') : Unset d' k := by
  unfold Api.readPressure at hd
  unfold Silent at hk
  split at hd
  · rename_i name hname
    rw [hname] at hk
    dsimp only at hk
    obtain ⟨d1, h1, h2⟩ := After.bindIgnore hd
    exact hn _ (h.select (s := .boundaryPressure) hk h1) (lib_selectCondition h1) h2
  · rename_i hname
    rw [hname] at hk
    split at hd
    · rename_i p hp
      rcases hk with hk | hk
      · rcases After.bind hd with h1 | ⟨d1, h1, h2⟩
        · exact h.store hk (Or.inr h1)
        · exact hn _ (h.store hk (Or.inl h1)) (lib_storeCondition (Or.inl h1)) h2
      · dsimp only at hk; rw [hp] at hk; cases hk
    · exact hn _ h rfl hd

theorem unset_velocity {d d' : Dy} {c : CmdLine} {k : CondKey} {next : Dy → Res Dy}
    (h : Unset d k)
    (hk : CondKey.boundaryVelocity ≠ k ∨ Silent d.lib c.velocityFunc c.velocityValue)
    (hn : ∀ e, Unset e k → e.lib = d.lib → After (next e) d' → Unset d' k)
    (hd : After (Api.readVelocity c d next) d') : Unset d' k := by
  unfold Api.readVelocity at hd
  unfold Silent at hk
  split at hd
  · rename_i name hname
    rw [hname] at hk
    dsimp only at hk
    obtain ⟨d1, h1, h2⟩ := After.bindIgnore hd
    exact hn _ (h.select (s := .boundaryVelocity) hk h1) (lib_selectCondition h1) h2
  · rename_i hname
    rw [hname] at hk
    split at hd
    · rename_i p hp
      rcases hk with hk | hk
      · obtain ⟨d1, h1, h2⟩ := After.bindIgnore hd
        exact hn _ (h.store hk h1) (lib_storeCondition h1) h2
      · dsimp only at hk; rw [hp] at hk; cases hk
    · exact hn _ h rfl hd

theorem unset_temperature {d d' : Dy} {c : CmdLine} {k : CondKey} {next : Dy → Res Dy}
    (h : Unset d k)
    (hk : CondKey.boundaryTemperature ≠ k ∨ Silent d.lib c.temperatureFunc c.temperatureValue)
    (hn : ∀ e, Unset e k → e.lib = d.lib → After (next e) d' → Unset d' k)
    (hd : After (Api.readTemperature c d next) d') : Unset d' k := by
  unfold Api.readTemperature at hd
  unfold Silent at hk
  split at hd
  · rename_i name hname
    rw [hname] at hk
    dsimp only at hk
    rcases After.bind hd with h1 | ⟨d1, h1, h2⟩
    · exact h.select (s := .boundaryTemperature) hk (Or.inr h1)
    · exact hn _ (h.select (s := .boundaryTemperature) hk (Or.inl h1)) (lib_selectCondition (Or.inl h1)) h2
  · rename_i hname
    rw [hname] at hk
    split at hd
    · rename_i p hp
      rcases hk with hk | hk
      · obtain ⟨d1, h1, h2⟩ := After.bindIgnore hd
        exact hn _ (h.store hk h1) (lib_storeCondition h1) h2
      · dsimp only at hk; rw [hp] at hk; cases hk
    · exact hn _ h rfl hd

/-- The command line sets nothing for `k`. -/
def SilentOn (l : Lib.Lib) (c : CmdLine) (k : CondKey) : Prop :=
  match k with
  | .boundaryPressure => Silent l c.pressureFunc c.pressureValue
  | .boundaryVelocity => Silent l c.velocityFunc c.velocityValue
  | .boundaryTemperature => Silent l c.temperatureFunc c.temperatureValue
  | _ => True

theorem unset_options {d d' : Dy} {c : CmdLine} {k : CondKey} (hs : SilentOn d.lib c k)
    (hd : Api.setFromOptions d c = .ok d') : Unset d' k := by
  unfold Api.setFromOptions at hd
  split at hd
  · cases hd
  split at hd
  · cases hd
  have hp : CondKey.boundaryPressure ≠ k ∨ Silent d.lib c.pressureFunc c.pressureValue := by
    cases k <;> first | exact Or.inl (by decide) | exact Or.inr hs
  have hv : CondKey.boundaryVelocity ≠ k ∨ Silent d.lib c.velocityFunc c.velocityValue := by
    cases k <;> first | exact Or.inl (by decide) | exact Or.inr hs
  have ht : CondKey.boundaryTemperature ≠ k ∨
      Silent d.lib c.temperatureFunc c.temperatureValue := by
    cases k <;> first | exact Or.inl (by decide) | exact Or.inr hs
  have h0 : Unset { d with conditions := some Store.create } k := ⟨_, rfl, rfl⟩
  refine unset_pressure h0 hp ?_ (Or.inl hd)
  intro e he hl h
  refine unset_velocity he (by rw [hl]; exact hv) ?_ h
  intro e2 he2 hl2 h
  refine unset_temperature he2 (by rw [hl2, hl]; exact ht) ?_ h
  intro e3 he3 hl3 h
  split at h
  · rcases h with h | h <;> cases h; exact he3
  · rcases h with h | h <;> cases h; exact he3

/-! ## Calls after TDySetFromOptions are defined -/

/-- Both records exist and the table of names has not been released. -/
def Ready (d : Dy) : Prop :=
  (∃ s, d.conditions = some s) ∧ (∃ s, d.matprop = some s) ∧ ∃ h, Names d.lib h

theorem getFn_names {l : Lib.Lib} {h : List Call} (hn : Names l h) (name : String) :
    Lib.getFn l name ≠ .ub := by
  rcases hn with ⟨h1, _⟩ | ⟨m, h1, _⟩
  · rw [h1]; intro h2; cases h2
  · unfold Lib.getFn
    rw [h1]
    dsimp only
    split <;> intro h2 <;> cases h2

theorem Ready.store {d : Dy} (h : Ready d) (k : CondKey) (e : Entry) (b : Block) :
    ∃ d', Api.storeCondition d k e b = .ok d' ∧ Ready d' := by
  obtain ⟨⟨s, hs⟩, hm, hl⟩ := h
  unfold Api.storeCondition
  rw [hs]
  exact ⟨_, rfl, ⟨_, rfl⟩, hm, hl⟩

theorem Ready.select {d : Dy} (h : Ready d) (s : CondSetter) (name : String) :
    ∃ d', After (Api.selectCondition d s name) d' ∧ Ready d' := by
  unfold Api.selectCondition
  split
  · obtain ⟨d', h1, h2⟩ := h.store s.key s.entry { func := some _, value := fun _ => 0 }
    exact ⟨d', Or.inl h1, h2⟩
  · exact ⟨d, Or.inr rfl, h⟩
  · rename_i h2
    obtain ⟨_, _, _, hn⟩ := h
    exact absurd h2 (getFn_names hn name)

theorem after_bindIgnore {r : Res Dy} {d1 d' : Dy} {f : Dy → Res Dy} (h1 : After r d1)
    (h2 : After (f d1) d') : After (r.bindIgnore f) d' := by
  rcases h1 with h1 | h1 <;> rw [h1] <;> exact h2

theorem Ready.readPressure {d : Dy} (h : Ready d) (c : CmdLine) {next : Dy → Res Dy}
    (hn : ∀ e, Ready e → ∃ d', After (next e) d' ∧ Ready d') :
    ∃ d', After (Api.readPressure c d next) d' ∧ Ready d' := by
  unfold Api.readPressure
  split
  · obtain ⟨d1, h1, h2⟩ := h.select .boundaryPressure ‹_›
    obtain ⟨d', h3, h4⟩ := hn d1 h2
    exact ⟨d', after_bindIgnore h1 h3, h4⟩
  · split
    · obtain ⟨d1, h1, h2⟩ := h.store .boundaryPressure .constantBoundary _
      obtain ⟨d', h3, h4⟩ := hn d1 h2
      exact ⟨d', by unfold Api.setConstantCondition; rw [h1]; exact h3, h4⟩
    · exact hn d h

theorem Ready.readVelocity {d : Dy} (h : Ready d) (c : CmdLine) {next : Dy → Res Dy}
    (hn : ∀ e, Ready e → ∃ d', After (next e) d' ∧ Ready d') :
    ∃ d', After (Api.readVelocity c d next) d' ∧ Ready d' := by
  unfold Api.readVelocity
  split
  · obtain ⟨d1, h1, h2⟩ := h.select .boundaryVelocity ‹_›
    obtain ⟨d', h3, h4⟩ := hn d1 h2
    exact ⟨d', after_bindIgnore h1 h3, h4⟩
  · split
    · obtain ⟨d1, h1, h2⟩ := h.store .boundaryVelocity .constantBoundary _
      obtain ⟨d', h3, h4⟩ := hn d1 h2
      exact ⟨d', by unfold Api.setConstantCondition; rw [h1]; exact h3, h4⟩
    · exact hn d h

theorem Ready.readTemperature {d : Dy} (h : Ready d) (c : CmdLine) {next : Dy → Res Dy}
    (hn : ∀ e, Ready e → ∃ d', After (next e) d' ∧ Ready d') :
    ∃ d', After (Api.readTemperature c d next) d' ∧ Ready d' := by
  unfold Api.readTemperature
  split
  · obtain ⟨d1, h1, h2⟩ := h.select .boundaryTemperature ‹_›
    rcases h1 with h1 | h1
    · obtain ⟨d', h3, h4⟩ := hn d1 h2
      exact ⟨d', by rw [h1]; exact h3, h4⟩
    · exact ⟨d1, by rw [h1]; exact Or.inr rfl, h2⟩
  · split
    · obtain ⟨d1, h1, h2⟩ := h.store .boundaryTemperature .constantBoundary _
      obtain ⟨d', h3, h4⟩ := hn d1 h2
      exact ⟨d', by unfold Api.setConstantCondition; rw [h1]; exact h3, h4⟩
    · exact hn d h

theorem Ready.step {d : Dy} (h : Ready d) (c : Call) :
    ∃ d', After (Api.step d c) d' ∧ Ready d' := by
  cases c with
  | register name f =>
    obtain ⟨hc, hm, g, hn⟩ := h
    obtain ⟨l', hl⟩ := registerFn_ok d.lib hn name f
    exact ⟨{ d with lib := l' }, Or.inl (by unfold Api.step; dsimp only; rw [hl]), hc, hm, _,
      hn.register hl⟩
  | setCondition s f =>
    obtain ⟨d', h1, h2⟩ := h.store s.key s.entry _
    exact ⟨d', Or.inl h1, h2⟩
  | selectCondition s name => exact h.select s name
  | setMaterial stack k kind a =>
    obtain ⟨hc, ⟨s, hs⟩, hl⟩ := h
    refine ⟨{ d with
        blocks := d.blocks ++ [matBlock stack kind a]
        matprop := some (Slots.set s k (some d.blocks.length) (some (matEntry kind a).code)
          (some tdyFree)) }, Or.inl ?_, hc, ⟨_, rfl⟩, hl⟩
    unfold Api.step Api.setMaterial; dsimp only; rw [hs]
  | setFromOptions c =>
    show ∃ d', After (Api.setFromOptions d c) d' ∧ Ready d'
    unfold Api.setFromOptions
    split
    · exact ⟨d, Or.inr rfl, h⟩
    split
    · exact ⟨d, Or.inr rfl, h⟩
    have h0 : Ready { d with conditions := some Store.create } := ⟨⟨_, rfl⟩, h.2.1, h.2.2⟩
    refine h0.readPressure c fun e he => ?_
    refine he.readVelocity c fun e2 he2 => ?_
    refine he2.readTemperature c fun e3 he3 => ?_
    split
    · exact ⟨e3, Or.inr rfl, he3⟩
    · exact ⟨_, Or.inl rfl, he3.1, ⟨_, rfl⟩, he3.2.2⟩
  | setup => exact ⟨_, Or.inl rfl, h.1, h.2.1, h.2.2⟩

theorem Ready.run {d : Dy} (h : Ready d) (cs : List Call) : ∃ d', Api.run d cs = some d' := by
  induction cs generalizing d with
  | nil => exact ⟨d, rfl⟩
  | cons c cs ih =>
    obtain ⟨d1, h1, h2⟩ := h.step c
    obtain ⟨d', h3⟩ := ih h2
    refine ⟨d', ?_⟩
    unfold Api.run
    rcases h1 with h1 | h1 <;> rw [h1] <;> exact h3

theorem ok_bind {r : Res Dy} {f : Dy → Res Dy} {d' : Dy} (h : r.bind f = .ok d') :
    ∃ d1, r = .ok d1 ∧ f d1 = .ok d' := by
  cases r with
  | ok s => exact ⟨s, rfl, h⟩
  | err s => cases h
  | ub => cases h

theorem ok_bindIgnore {r : Res Dy} {f : Dy → Res Dy} {d' : Dy} (h : r.bindIgnore f = .ok d') :
    ∃ d1, After r d1 ∧ f d1 = .ok d' := by
  cases r with
  | ok s => exact ⟨s, Or.inl rfl, h⟩
  | err s => exact ⟨s, Or.inr rfl, h⟩
  | ub => cases h

theorem ok_pressure {d d' : Dy} {c : CmdLine} {next : Dy → Res Dy}
    (h : Api.readPressure c d next = .ok d') : ∃ e, e.lib = d.lib ∧ next e = .ok d' := by
  unfold Api.readPressure at h
  split at h
  · obtain ⟨d1, h1, h2⟩ := ok_bindIgnore h
    exact ⟨d1, lib_selectCondition h1, h2⟩
  · split at h
    · obtain ⟨d1, h1, h2⟩ := ok_bind h
      exact ⟨d1, lib_storeCondition (Or.inl h1), h2⟩
    · exact ⟨d, rfl, h⟩

theorem ok_velocity {d d' : Dy} {c : CmdLine} {next : Dy → Res Dy}
    (h : Api.readVelocity c d next = .ok d') : ∃ e, e.lib = d.lib ∧ next e = .ok d' := by
  unfold Api.readVelocity at h
  split at h
  · obtain ⟨d1, h1, h2⟩ := ok_bindIgnore h
    exact ⟨d1, lib_selectCondition h1, h2⟩
  · split at h
    · obtain ⟨d1, h1, h2⟩ := ok_bindIgnore h
      exact ⟨d1, lib_storeCondition h1, h2⟩
    · exact ⟨d, rfl, h⟩

theorem ok_temperature {d d' : Dy} {c : CmdLine} {next : Dy → Res Dy}
    (h : Api.readTemperature c d next = .ok d') :
    (∃ e, next e = .ok d') ∧ ∀ name, c.temperatureFunc = some name →
      Lib.getFn d.lib name ≠ .notFound := by
  unfold Api.readTemperature at h
  split at h
  · rename_i name hname
    obtain ⟨d1, h1, h2⟩ := ok_bind h
    refine ⟨⟨d1, h2⟩, fun name' hn hf => ?_⟩
    rw [hname] at hn
    cases hn
    unfold Api.selectCondition at h1
    rw [hf] at h1
    cases h1
  · rename_i hname
    refine ⟨?_, fun name' hn => by rw [hname] at hn; cases hn⟩
    split at h
    · obtain ⟨d1, h1, h2⟩ := ok_bindIgnore h
      exact ⟨d1, h2⟩
    · exact ⟨d, h⟩

theorem ok_options {d d' : Dy} {c : CmdLine} (h : Api.setFromOptions d c = .ok d') :
    (∃ s, d'.matprop = some s) ∧ ∀ name, c.temperatureFunc = some name →
      Lib.getFn d.lib name ≠ .notFound := by
  unfold Api.setFromOptions at h
  split at h
  · cases h
  split at h
  · cases h
  obtain ⟨e1, h1, h⟩ := ok_pressure h
  obtain ⟨e2, h2, h⟩ := ok_velocity h
  obtain ⟨⟨e3, h⟩, h4⟩ := ok_temperature h
  split at h
  · cases h
  · cases h
    refine ⟨⟨_, rfl⟩, fun name hn => ?_⟩
    have := h4 name hn
    rw [h2, h1] at this
    exact this

end TDy.Api.Proofs
