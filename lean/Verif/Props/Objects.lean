import Verif.Spec.Objects
import Verif.Props.TimeIntegrator
import Mathlib.Data.List.GetD

/-!
# C214: what repeated calls leave behind
-/

namespace TDy.Objs.Props

open TDy TDy.Objs TDy.Objs.Spec

/-! ## Counting -/

/-- The call succeeds; the objects with numbers from `next` on are described by the list. -/
def Adds (g : List (Option Kind)) (f : Pool → Res Pool) : Prop :=
  ∀ s, Unused s → ∃ s', f s = .ok s' ∧ s'.next = s.next + g.length ∧
    ∀ b, s'.live b = if b < s.next then s.live b else g.getD (b - s.next) none

theorem unused_of {g : List (Option Kind)} {s s' : Pool} (h1 : s'.next = s.next + g.length)
    (h2 : ∀ b, s'.live b = if b < s.next then s.live b else g.getD (b - s.next) none) : Unused s' := by
  intro b hb
  rw [h2, if_neg (by omega)]
  simp [show g.length ≤ b - s.next by omega]

theorem Adds.bind {g g' : List (Option Kind)} {f f' : Pool → Res Pool} (h : Adds g f) (h' : Adds g' f') :
    Adds (g ++ g') (fun s => (f s).bind f') := by
  intro s hs
  obtain ⟨s1, e1, n1, l1⟩ := h s hs
  obtain ⟨s2, e2, n2, l2⟩ := h' s1 (unused_of n1 l1)
  refine ⟨s2, by simp [e1, Res.bind, e2], by simp [n2, n1, Nat.add_assoc], ?_⟩
  intro b
  rw [l2, l1, n1]
  by_cases hb : b < s.next
  · simp [hb, show b < s.next + g.length by omega]
  · by_cases hb2 : b < s.next + g.length
    · simp only [hb, hb2, if_true, if_false]
      rw [List.getD_append _ _ _ _ (by omega)]
    · simp only [hb, hb2, if_false]
      rw [List.getD_append_right _ _ _ _ (by omega)]
      congr 1
      omega

theorem number_adds {g : List (Option Kind)} {s s' : Pool} (h1 : s'.next = s.next + g.length)
    (h2 : ∀ b, s'.live b = if b < s.next then s.live b else g.getD (b - s.next) none) (k : Kind) :
    number k s' = number k s + g.count (some k) := by
  have hc : ∀ l : List (Option Kind), ∀ N,
      ((Finset.range (N + l.length)).filter
        (fun b => (if b < N then s.live b else l.getD (b - N) none) = some k)).card =
      ((Finset.range N).filter (fun b => s.live b = some k)).card + l.count (some k) := by
    intro l
    induction l using List.reverseRecOn with
    | nil =>
      intro N
      simp only [List.length_nil, Nat.add_zero, List.count_nil]
      congr 1
      apply Finset.filter_congr
      intro b hb
      simp [Finset.mem_range.1 hb]
    | append_singleton l a ih =>
      intro N
      rw [List.length_append, List.length_singleton, ← Nat.add_assoc, Finset.range_add_one,
        Finset.filter_insert, List.count_append]
      have e : (Finset.range (N + l.length)).filter
          (fun b => (if b < N then s.live b else (l ++ [a]).getD (b - N) none) = some k) =
        (Finset.range (N + l.length)).filter
          (fun b => (if b < N then s.live b else l.getD (b - N) none) = some k) := by
        apply Finset.filter_congr
        intro b hb
        have hb' := Finset.mem_range.1 hb
        by_cases hN : b < N
        · simp [hN]
        · simp only [hN, if_false]
          rw [List.getD_append _ _ _ _ (by omega)]
      rw [e]
      have ea : (l ++ [a]).getD (N + l.length - N) none = a := by
        rw [Nat.add_sub_cancel_left]; simp
      simp only [show ¬ N + l.length < N by omega, if_false, ea]
      by_cases hk : a = some k
      · rw [if_pos hk, Finset.card_insert_of_notMem (by simp), ih, hk]
        simp [Nat.add_assoc]
      · rw [if_neg hk, ih]
        simp [hk]
  unfold number
  rw [h1, ← hc g s.next]
  congr 1
  apply Finset.filter_congr
  intro b _
  rw [h2]

theorem Adds.leaves {g : List (Option Kind)} {f : Pool → Res Pool} (h : Adds g f) {n : Kind → Nat}
    (hn : ∀ k, g.count (some k) = n k) : Leaves n f := by
  intro s hs
  obtain ⟨s', e, h1, h2⟩ := h s hs
  refine ⟨s', e, unused_of h1 h2, ?_, fun k => by rw [number_adds h1 h2, hn]⟩
  intro b hb
  rw [h2, if_pos]
  by_contra hlt
  rw [hs b (by omega)] at hb
  simp at hb

theorem Adds.givesBack {g : List (Option Kind)} {f : Pool → Res Pool} (h : Adds g f)
    (hn : ∀ x ∈ g, x = none) : GivesBack f := by
  intro s hs
  obtain ⟨s', e, h1, h2⟩ := h s hs
  refine ⟨s', e, ?_, unused_of h1 h2⟩
  intro b
  rw [h2]
  by_cases hb : b < s.next
  · rw [if_pos hb]
  · rw [if_neg hb, hs b (by omega)]
    by_cases hl : b - s.next < g.length
    · rw [List.getD_eq_getElem _ _ hl]
      exact hn _ (List.getElem_mem _)
    · simp [Nat.le_of_not_lt hl]

theorem leaves_bind {n m : Kind → Nat} {f g : Pool → Res Pool} (hf : Leaves n f) (hg : Leaves m g) :
    Leaves (fun k => n k + m k) (fun s => (f s).bind g) := by
  intro s hs
  obtain ⟨s1, e1, u1, k1, c1⟩ := hf s hs
  obtain ⟨s2, e2, u2, k2, c2⟩ := hg s1 u1
  refine ⟨s2, by simp [e1, Res.bind, e2], u2, ?_, fun k => by rw [c2, c1, Nat.add_assoc]⟩
  intro b hb
  rw [k2 b (by rw [k1 b hb]; exact hb), k1 b hb]

theorem leaves_none : Leaves (fun _ => 0) (fun s => .ok s) :=
  fun s hs => ⟨s, rfl, hs, fun _ _ => rfl, fun _ => rfl⟩

theorem leaves_times {n : Kind → Nat} {f : Pool → Res Pool} (hf : Leaves n f) :
    ∀ j, Leaves (fun k => j*n k) (times f j)
  | 0 => by simpa [Spec.times] using leaves_none
  | j + 1 => by
    have := leaves_bind (leaves_times hf j) hf
    intro s hs
    obtain ⟨s', e, h1, h2, h3⟩ := this s hs
    exact ⟨s', e, h1, h2, fun k => by rw [h3 k]; ring⟩

/-- What a call leaves is determined. -/
theorem leaves_unique {n m : Kind → Nat} {f : Pool → Res Pool} (hf : Leaves n f) (hg : Leaves m f) :
    n = m := by
  obtain ⟨s, e, -, -, h⟩ := hf ⟨0, fun _ => .none⟩ (fun _ _ => rfl)
  obtain ⟨s', e', -, -, h'⟩ := hg ⟨0, fun _ => .none⟩ (fun _ _ => rfl)
  rw [e] at e'
  injection e' with e'
  subst e'
  funext k
  have a := h k
  have b := h' k
  omega

/-! ## The functions one by one -/

theorem adds_toNatural {c : Cfg} (hc : Ordered c) : Adds [] (toNatural c) := by
  intro s hs
  have e : toNatural c s = .ok s := by
    rcases hc with h | h <;> simp [toNatural, h]
  exact ⟨s, e, by simp, fun b => by
    by_cases hb : b < s.next
    · simp [hb]
    · simp [hb, hs b (by omega)]⟩

theorem toNatural_ok {c : Cfg} (hc : Ordered c) (s : Pool) : toNatural c s = .ok s := by
  rcases hc with h | h <;> simp [toNatural, h]

theorem adds_ok : Adds [] (fun s => .ok s) := by
  intro s hs
  exact ⟨s, rfl, by simp, fun b => by
    by_cases hb : b < s.next
    · simp [hb]
    · simp [hb, hs b (by omega)]⟩

/-- An object created around a call: it comes before what the call adds, and is destroyed after it. -/
theorem adds_around (k : Kind) {g : List (Option Kind)} {f : Pool → Res Pool} (hf : Adds g f) :
    Adds (none :: g) (fun s => (f (create k s).2).bind (destroy (create k s).1)) := by
  intro s hs
  have hu : Unused (create k s).2 := by
    intro b hb
    simp only [create] at hb ⊢
    simp [wr, show b ≠ s.next by omega, hs b (by omega)]
  obtain ⟨s1, e1, n1, l1⟩ := hf _ hu
  have hlive : s1.live s.next = some k := by
    rw [l1]; simp [create, wr]
  refine ⟨⟨s1.next, wr s1.live s.next none⟩, ?_, ?_, ?_⟩
  · show (f (create k s).2).bind (destroy s.next) = _
    rw [e1]
    simp [Res.bind, destroy, hlive]
  · simp only [n1, create, List.length_cons]; omega
  · intro b
    simp only [wr, l1, create]
    by_cases h1 : b < s.next
    · simp [h1, show b ≠ s.next by omega, show b < s.next + 1 by omega]
    · by_cases h2 : b = s.next
      · simp [h2]
      · obtain ⟨d, hd⟩ : ∃ d, b - s.next = d + 1 := ⟨b - s.next - 1, by omega⟩
        simp [h1, h2, hd, show ¬ b < s.next + 1 by omega, show b - (s.next + 1) = d by omega]

/-- An object created before a call and not destroyed. -/
theorem adds_kept (k : Kind) {g : List (Option Kind)} {f : Pool → Res Pool} (hf : Adds g f) :
    Adds (some k :: g) (fun s => f (create k s).2) := by
  intro s hs
  have hu : Unused (create k s).2 := by
    intro b hb
    simp only [create] at hb ⊢
    simp [wr, show b ≠ s.next by omega, hs b (by omega)]
  obtain ⟨s1, e1, n1, l1⟩ := hf _ hu
  refine ⟨s1, e1, ?_, ?_⟩
  · simp only [n1, create, List.length_cons]; omega
  · intro b
    simp only [wr, l1, create]
    by_cases h1 : b < s.next
    · simp [h1, show b ≠ s.next by omega, show b < s.next + 1 by omega]
    · by_cases h2 : b = s.next
      · simp [h2]
      · obtain ⟨d, hd⟩ : ∃ d, b - s.next = d + 1 := ⟨b - s.next - 1, by omega⟩
        simp [h1, hd, show ¬ b < s.next + 1 by omega, show b - (s.next + 1) = d by omega]

/-- One object, created and destroyed. -/
theorem adds_brief (k : Kind) : Adds [none] (fun s => destroy (create k s).1 (create k s).2) :=
  adds_around k adds_ok

theorem adds_view : Adds [none] view := adds_brief .viewer

theorem adds_field {c : Cfg} (hc : Ordered c) : Adds [none] (getField c) :=
  adds_around .vec (adds_toNatural hc)

theorem adds_local {c : Cfg} (hc : Ordered c) : Adds [none] (naturalToLocal c) :=
  adds_around .vec (adds_toNatural hc)

theorem adds_twice {g : List (Option Kind)} {f : Pool → Res Pool} (h : Adds g f) :
    Adds (g ++ g) (fun s => (f s).bind f) := h.bind h

theorem bind_assoc' (r : Res Pool) (f g : Pool → Res Pool) :
    (r.bind f).bind g = r.bind (fun s => (f s).bind g) := by
  cases r <;> rfl

/-- What `TDyIOWriteVec` adds before it destroys its own vector. -/
def body (c : Cfg) : List (Option Kind) :=
  match c.format with
  | .ascii => [none, none]
  | .exodus => if c.exodusII then [none, none] else []
  | .hdf5 => if c.natural then [some .vec, some .vec, none, none] else [none, none]
  | .unset => []

theorem adds_writeVec {c : Cfg} (hc : Ordered c) (hf : c.format ≠ .unset) :
    Adds (none :: none :: body c) (writeVec c) := by
  have key : Adds (body c) (fun s => match c.format with
      | .ascii => (view s).bind view
      | .exodus => (viewExodus c s).bind (viewExodus c)
      | .hdf5 =>
        if c.natural then
          let (_pNatural, s) := create .vec s
          (toNatural c s).bind fun s =>
          let (_sNatural, s) := create .vec s
          (toNatural c s).bind fun s => (view s).bind view
        else (view s).bind view
      | .unset => .err s) := by
    unfold body
    cases e : c.format with
    | ascii => exact adds_twice adds_view
    | exodus =>
      cases e2 : c.exodusII
      · simpa [viewExodus, e2, Res.bind] using adds_ok
      · have e3 : viewExodus c = view := by funext s; simp [viewExodus, e2]
        simpa [e3] using adds_twice adds_view
    | hdf5 =>
      cases e2 : c.natural
      · simpa [e2] using adds_twice adds_view
      · have h := adds_kept .vec (adds_kept .vec (adds_twice adds_view))
        simpa [e2, toNatural, Res.bind] using h
    | unset => exact absurd e hf
  intro s hs
  obtain ⟨s', e, r⟩ := adds_around .vec ((adds_field hc).bind key) s hs
  refine ⟨s', ?_, r⟩
  rw [← e]
  exact (bind_assoc' _ _ _).symm

theorem adds_checkpoint {c : Cfg} (hc : Ordered c) : Adds [none, some .vec] (outputCheckpoint c) :=
  adds_around .viewer (adds_kept .vec (adds_toNatural hc))

theorem adds_setInitial {c : Cfg} (hc : Ordered c) : Adds [none] (setInitialCondition c) :=
  (adds_toNatural hc).bind ((adds_toNatural hc).bind (adds_local hc))

theorem adds_readIC {c : Cfg} (hc : Ordered c) : Adds [none, some .viewer, none] (readIC c) :=
  adds_around .vec (adds_kept .viewer (adds_setInitial hc))

theorem adds_readVariable {c : Cfg} (hc : Ordered c) :
    Adds [some .vec, none, some .vec, none] (readVariable c) :=
  adds_kept .vec (adds_around .viewer (adds_kept .vec (adds_local hc)))

theorem adds_readPermeability {c : Cfg} (hc : Ordered c) (a : Bool) :
    Adds (if a then [some .vec, none, some .vec, none, some .vec, none, some .vec, none, some .vec, none,
      some .vec, none] else [some .vec, none, some .vec, none]) (readPermeability c a) := by
  cases a
  · exact adds_readVariable hc
  · exact (adds_readVariable hc).bind ((adds_readVariable hc).bind (adds_readVariable hc))

theorem adds_residual (bs : Nat) (hb : 2 ≤ bs) :
    Adds [some .vec, some .vec, some .vec, some .vec] (residualDAE bs) := by
  have h : ∀ s, residualDAE bs s = .ok (create .vec (create .vec (create .vec (create .vec s).2).2).2).2 := by
    intro s
    simp [residualDAE, extractSub, show ¬ bs ≤ 0 by omega, show ¬ bs ≤ 1 by omega]
  have := adds_kept .vec (adds_kept .vec (adds_kept .vec (adds_kept .vec adds_ok)))
  intro s hs
  obtain ⟨s', e, r⟩ := this s hs
  exact ⟨s', by rw [h]; exact e, r⟩

/-! ## C214 -/

/-- C214, the functions that give back what they take: the getters of pressure, saturation and mass,
setting initial conditions, output as text, to Exodus files and, for meshes without natural order, to HDF5 files, the
initial fields of all modes, the Jacobians, and the regression file. -/
theorem C214_given_back_partial (c : Cfg) (hc : Ordered c) :
    GivesBack (getField c) ∧ GivesBack (setInitialCondition c) ∧
    (c.format = .ascii ∨ c.format = .exodus ∨ (c.format = .hdf5 ∧ c.natural = false) →
      GivesBack (writeVec c)) ∧
    GivesBack jacobian ∧ (∀ i, GivesBack (richardsInitialize i)) ∧
    (∀ i, GivesBack (coupledInitialize i)) ∧ GivesBack (regressionOutput c) := by
  have hok : GivesBack (fun s => .ok s) := adds_ok.givesBack (by simp)
  refine ⟨(adds_field hc).givesBack (by simp), (adds_setInitial hc).givesBack (by simp), ?_,
    (adds_brief .vec).givesBack (by simp), ?_, ?_, ?_⟩
  · intro hf
    have hne : c.format ≠ .unset := by
      rcases hf with h | h | ⟨h, -⟩ <;> rw [h] <;> decide
    apply (adds_writeVec hc hne).givesBack
    unfold body
    rcases hf with h | h | ⟨h, h2⟩
    · simp [h]
    · cases c.exodusII <;> simp [h]
    · simp [h, h2]
  · intro i
    cases i
    · exact (adds_brief .rand).givesBack (by simp)
    · exact adds_view.givesBack (by simp)
    · exact hok
  · intro i
    cases i
    · exact (adds_around .rand (adds_brief .vec)).givesBack (by simp)
    · exact hok
    · exact hok
  · unfold regressionOutput
    cases c.th
    · exact (adds_brief .vec).givesBack (by simp)
    · intro s hs
      refine ⟨⟨s.next + 2, s.live⟩, ?_, fun b => rfl, fun b hb => hs b (by simp at hb; omega)⟩
      have h0 := hs s.next (le_refl _)
      have h1 := hs (s.next + 1) (by omega)
      simp only [if_true, create, destroy, Res.bind]
      simp [wr]
      funext b
      by_cases e1 : b = s.next
      · subst e1; simp [wr, h0]
      · by_cases e2 : b = s.next + 1
        · subst e2; simp [wr, h1]
        · simp [wr, e1, e2]

/-- The set-up of the regression file keeps one vector and one scatter, and destroying it gives back
these and no others, whatever was created in between. -/
theorem C214_regression (s : Pool) (hs : Unused s) :
    ∃ r s', regressionInitialize s = .ok (r, s') ∧ Unused s' ∧
      (∀ b, s'.live b = if b = r.cellsPerProcess then some .vec else
        if b = r.scatter then some .scatter else s.live b) ∧
      s.live r.cellsPerProcess = none ∧ s.live r.scatter = none ∧ r.cellsPerProcess ≠ r.scatter ∧
      ∀ t : Pool, t.live r.cellsPerProcess = some .vec → t.live r.scatter = some .scatter →
        ∃ t', regressionDestroy r t = .ok t' ∧
          ∀ b, t'.live b = if b = r.cellsPerProcess ∨ b = r.scatter then none else t.live b := by
  refine ⟨⟨s.next + 2, s.next + 6⟩, ⟨s.next + 7, wr (wr s.live (s.next + 2) (some .vec)) (s.next + 6)
    (some .scatter)⟩, ?_, ?_, ?_, hs _ (by simp), hs _ (by simp), by simp, ?_⟩
  · have h0 := hs s.next (le_refl _)
    have h1 := hs (s.next + 1) (by omega)
    have h3 := hs (s.next + 3) (by omega)
    have h4 := hs (s.next + 4) (by omega)
    have h5 := hs (s.next + 5) (by omega)
    simp [regressionInitialize, create, destroy, Res.bind, wr, Nat.add_assoc]
    funext b
    by_cases e0 : b = s.next
    · subst e0; simp [wr, h0]
    by_cases e1 : b = s.next + 1
    · subst e1; simp [wr, h1]
    by_cases e2 : b = s.next + 2
    · subst e2; simp [wr]
    by_cases e3 : b = s.next + 3
    · subst e3; simp [wr, h3]
    by_cases e4 : b = s.next + 4
    · subst e4; simp [wr, h4]
    by_cases e5 : b = s.next + 5
    · subst e5; simp [wr, h5]
    simp [wr, e0, e1, e2, e3, e4, e5]
  · intro b hb
    simp only at hb
    simp [wr, show b ≠ s.next + 2 by omega, show b ≠ s.next + 6 by omega, hs b (by omega)]
  · intro b
    simp only [wr]
    by_cases e : b = s.next + 2
    · subst e; simp
    · simp [e]
  · intro t h1 h2
    simp only at h1 h2
    refine ⟨⟨t.next, wr (wr t.live (s.next + 6) none) (s.next + 2) none⟩, ?_, ?_⟩
    · simp [regressionDestroy, destroy, h2, Res.bind, wr, h1]
    · intro b
      simp only [wr]
      by_cases e : b = s.next + 2
      · simp [e]
      · simp [e]

/-- C214 fails for checkpoints: each leaves a vector. -/
theorem C214_checkpoints_violated (c : Cfg) (hc : Ordered c) (j : Nat) :
    Leaves (vectors j) (times (outputCheckpoint c) j) := by
  have := leaves_times ((adds_checkpoint hc).leaves (n := vectors 1) (by
    intro k; cases k <;> rfl)) j
  convert this using 2 with k
  simp [vectors]

/-- C214 fails for outputs to HDF5 files in natural order: each leaves two vectors. -/
theorem C214_outputs_violated (c : Cfg) (hf : c.format = .hdf5) (hn : c.natural = true) (j : Nat) :
    Leaves (vectors (2*j)) (times (writeVec c) j) := by
  have := leaves_times ((adds_writeVec (Or.inr hn) (by rw [hf]; decide)).leaves (n := vectors 2) (by
    intro k; unfold body; rw [hf, hn]; cases k <;> rfl)) j
  convert this using 2 with k
  simp [vectors, Nat.mul_comm]

/-- C214 fails for reading: an initial condition leaves the file open, a variable leaves two vectors, and
so the permeability two or six. -/
theorem C214_reading_violated (c : Cfg) (hc : Ordered c) (j : Nat) :
    Leaves (viewers j) (times (readIC c) j) ∧ Leaves (vectors (2*j)) (times (readVariable c) j) ∧
    ∀ a, Leaves (vectors ((if a then 6 else 2)*j)) (times (readPermeability c a) j) := by
  refine ⟨?_, ?_, ?_⟩
  · have := leaves_times ((adds_readIC hc).leaves (n := viewers 1) (by intro k; cases k <;> rfl)) j
    convert this using 2 with k
    simp [viewers]
  · have := leaves_times ((adds_readVariable hc).leaves (n := vectors 2) (by intro k; cases k <;> rfl)) j
    convert this using 2 with k
    simp [vectors, Nat.mul_comm]
  · intro a
    have := leaves_times ((adds_readPermeability hc a).leaves (n := vectors (if a then 6 else 2)) (by
      intro k; cases a <;> cases k <;> rfl)) j
    convert this using 2 with k
    cases a <;> simp [vectors, Nat.mul_comm]

/-- C214 fails for the residual of `MPFA_O_DAE`: each evaluation leaves four vectors. -/
theorem C214_residual_violated (bs : Nat) (hb : 2 ≤ bs) (j : Nat) :
    Leaves (vectors (4*j)) (times (residualDAE bs) j) := by
  have := leaves_times ((adds_residual bs hb).leaves (n := vectors 4) (by intro k; cases k <;> rfl)) j
  convert this using 2 with k
  simp [vectors, Nat.mul_comm]

/-- Vectors of a single unknown are not refused: the residual of `MPFA_O_DAE` then uses vectors that do
not exist. -/
theorem C214_residual_small_blocks (bs : Nat) (hb : bs < 2) (s : Pool) : residualDAE bs s = .ub := by
  have h1 : bs ≤ 1 := by omega
  simp [residualDAE, extractSub, h1]

/-- Without a format, output is refused after a vector was created, which stays. -/
theorem C214_refused_output_violated (c : Cfg) (hc : Ordered c) (hf : c.format = .unset) (s : Pool)
    (hs : Unused s) :
    ∃ s', writeVec c s = .err s' ∧ number .vec s' = number .vec s + 1 := by
  obtain ⟨s', e, h1, h2⟩ := adds_kept .vec (adds_field hc) s hs
  refine ⟨s', ?_, by rw [number_adds h1 h2]; rfl⟩
  simp only at e
  simp [writeVec, e, Res.bind, hf]

/-- Whenever a call leaves vectors, it does not give back what it takes. -/
theorem not_givesBack {n : Nat} (hn : 0 < n) {f : Pool → Res Pool} (h : Leaves (vectors n) f) :
    ¬ GivesBack f := by
  intro hg
  obtain ⟨s, e, u, -, hc⟩ := h ⟨0, fun _ => none⟩ (fun _ _ => rfl)
  obtain ⟨s', e', hsame, -⟩ := hg ⟨0, fun _ => none⟩ (fun _ _ => rfl)
  rw [e] at e'
  injection e' with e'
  subst e'
  have h1 := hc .vec
  have h2 : number .vec s = 0 := by
    unfold number
    rw [Finset.card_eq_zero, Finset.filter_eq_empty_iff]
    intro b _
    rw [hsame b]
    simp
  rw [h2] at h1
  simp [vectors] at h1
  omega

/-- C214 fails: not every configuration gives back what outputs and checkpoints take. -/
theorem C214_violated : ¬ ∀ c : Cfg, Ordered c →
    GivesBack (outputCheckpoint c) ∧ (c.format ≠ .unset → GivesBack (writeVec c)) := by
  intro h
  have h1 := h ⟨true, true, .hdf5, true, false⟩ (Or.inr rfl)
  have h2 := C214_checkpoints_violated ⟨true, true, .hdf5, true, false⟩ (Or.inr rfl) 1
  have e : times (outputCheckpoint ⟨true, true, .hdf5, true, false⟩) 1 =
      outputCheckpoint ⟨true, true, .hdf5, true, false⟩ := by
    funext s; rfl
  rw [e] at h2
  exact not_givesBack (by decide) h2 h1.1

/-! ## A whole run -/

open TDy.Time TDy.Time.Spec in
/-- What the events of a run leave. -/
theorem leaves_run {V : Type} (c : Objs.Cfg) (hc : Ordered c) (o : Nat)
    (ho : Leaves (vectors o) (writeVec c)) : ∀ tr : List (Ev V),
    Leaves (vectors (o*(outputs tr).length + (checkpoints tr).length)) (duringRun c tr)
  | [] => by
    have := leaves_none
    convert this using 2 with k
    · simp [vectors, outputs, checkpoints]
    · rfl
  | .attempt a :: l => by
    have := leaves_run c hc o ho l
    simpa [outputs, checkpoints, duringRun] using this
  | .output t i v :: l => by
    have := leaves_bind ho (leaves_run c hc o ho l)
    convert this using 2 with k
    · simp [vectors, outputs, checkpoints]
      split <;> ring
    · rfl
  | .checkpoint t i v :: l => by
    have h1 := C214_checkpoints_violated c hc 1
    have := leaves_bind (f := outputCheckpoint c) h1 (leaves_run c hc o ho l)
    convert this using 2 with k
    · simp [vectors, outputs, checkpoints]
      split <;> ring
    · rfl


open TDy.Time TDy.Time.Spec TDy.Time.Props in
/-- C214 over a run of a fresh simulation: however many steps are taken, cut and repeated, the vectors it leaves are as
many as the checkpoints, and two more for each output if these go to an HDF5 file in natural order.  With
other formats the checkpoints alone leave vectors. -/
theorem C214_run_violated {V : Type} (c : Objs.Cfg) (hc : Ordered c) (hf : c.format ≠ .unset)
    {k : Time.Cfg} {solver : Nat → V × Bool} {sync : ℝ} {s s' : Sim V}
    (_h : Returns k solver sync s (.ok s')) (_htr : s.trace = []) :
    Leaves (vectors ((if c.format = .hdf5 ∧ c.natural = true then 2 else 0)*(outputs s'.trace).length +
      (checkpoints s'.trace).length)) (duringRun c s'.trace) := by
  apply leaves_run c hc
  apply (adds_writeVec hc hf).leaves
  intro q
  unfold body
  cases hfm : c.format <;> cases hn : c.natural <;> cases he : c.exodusII <;> cases q <;> rfl

open TDy.Time in
theorem round_flag {V : Type} {c : Time.Cfg} {solver : Nat → V × Bool} {sync : ℝ} {l l' : Loop V}
    (he : c.ckEnable = true) (h1 : c.ckInterval = 1) (h : Time.round c solver sync l = .ok l') :
    l'.flag = false := by
  unfold Time.round at h
  cases hi : inner c solver l.left (startStep sync l.s) with
  | ub => rw [hi] at h; simp at h
  | err p => rw [hi] at h; simp at h
  | ok p =>
    rw [hi] at h
    simp [maybeCheckpoint, he, h1, Nat.mod_one] at h
    rw [← h]

open TDy.Time TDy.Time.Spec TDy.Time.Props TDy.Time.Proofs in
/-- With a checkpoint after every step, and text output or none, a run leaves a vector for every step it
takes. -/
theorem C214_every_step_violated {V : Type} (c : Objs.Cfg) (hc : Ordered c) (hf : c.format = .ascii)
    {k : Time.Cfg} {solver : Nat → V × Bool} {sync : ℝ} {s s' : Sim V}
    (h : Returns k solver sync s (.ok s')) (htr : s.trace = []) (he : k.ckEnable = true)
    (h1 : k.ckInterval = 1) :
    Leaves (vectors (accepted s'.trace).length) (duringRun c s'.trace) := by
  have hr := C214_run_violated c hc (by rw [hf]; decide) h htr
  have hne : ¬ (c.format = .hdf5 ∧ c.natural = true) := by rw [hf]; simp
  rw [if_neg hne, Nat.zero_mul, Nat.zero_add] at hr
  have hck : (checkpoints s'.trace).length = (accepted s'.trace).length := by
    obtain ⟨fuel, h⟩ := h
    unfold runToTime at h
    rw [Option.map_eq_some_iff] at h
    obtain ⟨rl, g1, g2⟩ := h
    have hinv := loop_invariant k solver sync
      (fun l => l.flag = false ∧ (checkpoints l.s.trace).length = (accepted l.s.trace).length)
      (fun _ => True)
      (fun l l' ht hI hr => by
        obtain ⟨n, new, ho⟩ := round_ok hr
        have hfl := round_flag he h1 hr
        refine ⟨hfl, ?_⟩
        obtain ⟨a, ha1, -⟩ := ho.acc
        rcases ho.ck he with ⟨-, q⟩ | ⟨q, -⟩
        · rw [ho.trace, checkpoints_append, accepted_append, q, ha1]
          simp [hI.2]
        · rw [hfl] at q; simp at q)
      (fun _ _ _ _ _ => trivial) fuel { s := s, left := 25, flag := false } rl
      ⟨rfl, by simp [htr, accepted, checkpoints, attempts]⟩ g1
    cases rl with
    | ok l =>
      obtain ⟨⟨a, b⟩, -⟩ := hinv.1 l rfl
      simp only [Res.ok.injEq] at g2
      rw [← g2]
      simpa [finish, a] using b
    | err l => simp at g2
    | ub => simp at g2
  rwa [hck] at hr

/-! ## The hypotheses are met -/

namespace ObjectsWitness

/-- A process with a vector, a viewer that is gone, and a random number generator. -/
def pool : Pool := ⟨3, fun b => if b = 0 then some .vec else if b = 2 then some .rand else none⟩

theorem pool_unused : Unused pool := by
  intro b hb
  have : 3 ≤ b := hb
  simp [pool, show b ≠ 0 by omega, show b ≠ 2 by omega]

/-- A `DMPLEX` with natural order and HDF5 output. -/
def cfg : Objs.Cfg := ⟨true, true, .hdf5, false, false⟩

/-- The same with text output. -/
def text : Objs.Cfg := ⟨true, true, .ascii, false, true⟩

/-- Five checkpoints leave six vectors where there was one, and four outputs nine. -/
example : (∃ s', times (outputCheckpoint cfg) 5 pool = .ok s' ∧ number .vec s' = 6 ∧ number .viewer s' = 0) ∧
    ∃ s', times (writeVec cfg) 4 pool = .ok s' ∧ number .vec s' = 9 ∧ number .rand s' = 1 := by
  obtain ⟨s1, e1, -, -, c1⟩ := C214_checkpoints_violated cfg (Or.inr rfl) 5 pool pool_unused
  obtain ⟨s2, e2, -, -, c2⟩ := C214_outputs_violated cfg rfl rfl 4 pool pool_unused
  have hv : number .vec pool = 1 := by decide
  have hw : number .viewer pool = 0 := by decide
  have hr : number .rand pool = 1 := by decide
  refine ⟨⟨s1, e1, by rw [c1, hv]; rfl, by rw [c1, hw]; rfl⟩, s2, e2, by rw [c2, hv]; rfl, by rw [c2, hr]; rfl⟩

/-- Text output leaves the process as it was. -/
example : ∃ s', writeVec text pool = .ok s' ∧ Same pool s' := by
  obtain ⟨s', e, h, -⟩ := (C214_given_back_partial text (Or.inr rfl)).2.2.1 (Or.inl rfl) pool pool_unused
  exact ⟨s', e, h⟩

/-- The refused output leaves two vectors where there was one. -/
example : ∃ s', writeVec ⟨false, false, .unset, false, false⟩ pool = .err s' ∧ number .vec s' = 2 := by
  obtain ⟨s', e, h⟩ := C214_refused_output_violated ⟨false, false, .unset, false, false⟩ (Or.inl rfl) rfl pool
    pool_unused
  exact ⟨s', e, by rw [h]; rfl⟩

/-- The run with one failed solve, two outputs and a checkpoint leaves five vectors. -/
example : ∃ s' : Time.Sim Nat, Time.Props.Returns Time.Props.cfg0 Time.Props.failOnce 1 Time.Props.start0
    (.ok s') ∧ Leaves (vectors 5) (duringRun cfg s'.trace) := by
  obtain ⟨s', h, -, h2, h3, -⟩ := Time.Props.concrete_run
  have := C214_run_violated cfg (Or.inr rfl) (by decide) h rfl
  rw [h2, h3] at this
  exact ⟨s', h, this⟩

end ObjectsWitness

end TDy.Objs.Props
