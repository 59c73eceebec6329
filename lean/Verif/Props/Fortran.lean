import Verif.Proofs.Fortran
import Mathlib.Data.List.Range
import Mathlib.Tactic.IntervalCases

/-!
# C197-C201: what a Fortran program relies on
-/

namespace TDy.Fortran.Props

open TDy TDy.Fortran TDy.Fortran.Spec TDy.Fortran.Proofs

/-! ## C197: the function that was set is the function that is evaluated -/

/-- **C197, partial.**  For programs that set fewer than 32 different functions of each kind, and all of one
kind before all of the other: every quantity of every object is evaluated with the function that was
set last.  Missing: more functions, and other orders; both fail. -/
theorem C197_set_is_evaluated_partial (junk : Nat → List Char) (j : Nat) (k k' : Kind) (hk : k' ≠ k)
    (S T : Finset Nat) (hS : S.card < 32) (hT : T.card < 32) (a b : List Call) (ha : SetsOnly k S a)
    (hb : SetsOnly k' T b) :
    ∃ w, run junk (start j) (a ++ b) = .ok w ∧
      ∀ o s, evaluated w o s = .ok (lastSet (a ++ b) o s) := by
  obtain ⟨w1, L1, r1, a1, h1, t1, s1⟩ := phase junk k S hS a (start j) [] (fun _ _ => none) ha
    (.inl ⟨rfl, rfl⟩) List.nodup_nil (by simp) (fun o s _ => rfl)
  have a1' : Active w1 k' [] := .inl ⟨t1 k' hk, rfl⟩
  have h1' : Holds w1 k' [] (fun _ _ => none) := by
    intro o s hs
    exact s1 o s (by rw [hs]; exact hk)
  obtain ⟨w2, L2, r2, a2, h2, t2, s2⟩ := phase junk k' T hT b w1 [] (fun _ _ => none) hb a1'
    List.nodup_nil (by simp) h1'
  refine ⟨w2, by rw [run_append junk a b _ _ r1]; exact r2, ?_⟩
  intro o s
  rw [lastSet_append]
  by_cases hs : s.kind = k'
  · have hb' := evaluated_holds h2 (by
      intro hn
      rcases a2 with ⟨-, hl⟩ | ⟨t, ht, hl, -⟩
      · exact absurd hl hn
      · exact ⟨t, ht, hl⟩) o s hs
    rw [hb', lastSet_other ha o s (by rw [hs]; exact hk)]
    simp [wantAfter]
  · have hsk : s.kind = k := by
      revert hs hk
      cases k <;> cases k' <;> cases s.kind <;> simp
    have h1'' : Holds w2 k L1 (wantAfter (fun _ _ => none) a) := by
      intro o' s' hs'
      have := h1 o' s' hs'
      rw [s2 o' s' (by rw [hs']; exact hk.symm)]
      exact this
    have ha' := evaluated_holds h1'' (by
      intro hn
      rcases a1 with ⟨-, hl⟩ | ⟨t, ht, hl, -⟩
      · exact absurd hl hn
      · exact ⟨t, by rw [t2 k hk.symm]; exact ht, hl⟩) o s hsk
    rw [ha', lastSet_other hb o s hs]
    simp [wantAfter]

/-- Porosity and pressure, a second object, and then the type of the boundary condition. -/
example : SetsOnly .real {5, 6, 7} [.set 0 .porosity 5, .set 0 .boundaryPressure 6, .set 1 .porosity 7]
    ∧ SetsOnly .int {5} [.set 0 .boundaryPressureType 5]
    ∧ lastSet ([.set 0 .porosity 5, .set 0 .boundaryPressure 6, .set 1 .porosity 7] ++
        [.set 0 .boundaryPressureType 5]) 0 .boundaryPressure = some 6 := by
  refine ⟨?_, ?_, by decide⟩
  · intro c hc
    simp only [List.mem_cons, List.not_mem_nil, or_false] at hc
    rcases hc with rfl | rfl | rfl
    · exact ⟨_, _, _, rfl, rfl, by decide⟩
    · exact ⟨_, _, _, rfl, rfl, by decide⟩
    · exact ⟨_, _, _, rfl, rfl, by decide⟩
  · intro c hc
    simp only [List.mem_cons, List.not_mem_nil, or_false] at hc
    subst hc
    exact ⟨_, _, _, rfl, rfl, by decide⟩

theorem fill (junk : Nat → List Char) (o : Nat) (s : Slot) : ∀ (fs : List Nat) (w : World) (L : List Nat),
    Active w s.kind L → (L ++ fs).Nodup → (L ++ fs).length ≤ 31 →
    ∃ w', run junk w (fs.map (Call.set o s)) = .ok w' ∧ Active w' s.kind (L ++ fs) := by
  intro fs
  induction fs with
  | nil => intro w L h _ _; exact ⟨w, rfl, by simpa using h⟩
  | cons f fs ih =>
    intro w L h hn hl
    have hf : f ∉ L := by
      intro hf
      have := (List.nodup_append.1 hn).2.2 f hf f List.mem_cons_self
      exact this rfl
    have e : added L f = L ++ [f] := if_neg hf
    have hl' : (added L f).length ≤ 31 := by
      rw [e]
      simp only [List.length_append, List.length_cons, List.length_nil] at hl ⊢
      omega
    obtain ⟨w1, id, e1, e2, e3, ⟨t, e4, e5, e6⟩, -⟩ := findOrAppend_active junk w s.kind L h f hl'
    rw [e] at e5 e6
    have e7 : L ++ f :: fs = (L ++ [f]) ++ fs := by simp
    obtain ⟨w', r, a⟩ := ih ⟨w1.tab, w1.last, fun o' s' => if o' = o ∧ s' = s then some id else w1.held o' s'⟩
      (L ++ [f]) (.inr ⟨t, e4, e5, e6⟩) (by rw [← e7]; exact hn) (by rw [← e7]; exact hl)
    refine ⟨w', ?_, by rw [e7]; exact a⟩
    rw [List.map_cons, run]
    simp only [step, setFunction, e1]
    exact r

/-- The 32nd different function of a kind makes the program undefined: after the loop the entry behind the
end of the array is looked at. -/
theorem C197_thirty_two_functions_undefined (junk : Nat → List Char) (j o : Nat) (s : Slot) (fs : List Nat)
    (f : Nat) (hn : (fs ++ [f]).Nodup) (hl : fs.length = 31) :
    run junk (start j) (fs.map (Call.set o s) ++ [.set o s f]) = .ub := by
  obtain ⟨w, r, a⟩ := fill junk o s fs (start j) [] (.inl ⟨rfl, rfl⟩)
    (by simpa using (List.nodup_append.1 hn).1) (by simp [hl])
  rw [run_append junk _ _ _ _ r]
  rw [List.nil_append] at a
  rcases a with ⟨-, h⟩ | ⟨t, h1, h2, h3⟩
  · rw [h] at hl; simp at hl
  · have hf : f ∉ fs := fun hf => (List.nodup_append.1 hn).2.2 f hf f (by simp) rfl
    have hne : ∀ j, 1 ≤ j → t.fn j ≠ some f := by
      intro j hj ej
      rw [h2.fn j hj, List.getElem?_eq_some_iff] at ej
      obtain ⟨hj, ej⟩ := ej
      exact hf (ej ▸ List.getElem_mem hj)
    have hs : search t f w.last 1 = .ok (1 + w.last) :=
      search_absent t f w.last 1 (by rw [h2.size, h3]; omega) fun j hj _ => hne j hj
    have : findOrAppend junk w s.kind f = .ub := by
      rw [findOrAppend, h1]
      simp only [hs]
      rw [append, if_pos (by rw [h2.size, h3]; omega)]
    simp only [run, step, setFunction, this]

example : ((List.range 31) ++ [31]).Nodup ∧ (List.range 31).length = 31 := by decide

/-- In no program that is defined do the arrays ever grow. -/
theorem C197_arrays_never_grow (junk : Nat → List Char) (j : Nat) (cs : List Call) (w : World)
    (h : run junk (start j) cs = .ok w) (k : Kind) (t : Table) (ht : w.tab k = some t) : t.size = 32 := by
  have happ : ∀ (w w' : World) (k : Kind) (t : Table) (last f id i : Nat), t.size = 32 →
      (∀ k t, w.tab k = some t → t.size = 32) → (t.fn id ≠ some f → id ≤ t.size → last ≤ t.size) →
      append junk w k t last f id = .ok (w', i) → ∀ k t, w'.tab k = some t → t.size = 32 := by
    intro w w' k t last f id i h1 h2 h3 h4 k' t' ht'
    rw [append] at h4
    split at h4
    · cases h4
    · split at h4
      · cases h4
        simp only [World.put] at ht'
        split at ht'
        · cases ht'; exact h1
        · exact h2 _ _ ht'
      · have := h3 (by assumption) (by omega)
        have hg : ¬ t.size < last := by omega
        simp only [if_neg hg] at h4
        cases h4
        simp only [World.put] at ht'
        split at ht'
        · cases ht'; exact h1
        · exact h2 _ _ ht'
  have hfind : ∀ (w w' : World) (k : Kind) (f i : Nat), (∀ k t, w.tab k = some t → t.size = 32) →
      findOrAppend junk w k f = .ok (w', i) → ∀ k t, w'.tab k = some t → t.size = 32 := by
    intro w w' k f i h1 h2
    rw [findOrAppend] at h2
    split at h2
    · exact happ w w' k _ _ _ _ _ rfl h1 (by intro _ _; show 1 ≤ 32; omega) h2
    · rename_i t ht
      cases hs : search t f w.last 1 with
      | ok id =>
        rw [hs] at h2
        refine happ w w' k _ _ _ _ _ (h1 _ _ ht) h1 ?_ h2
        intro hne hid
        rcases search_ok t f _ _ _ hs with ⟨h3, -⟩ | ⟨h3, -⟩
        · omega
        · exact absurd h3 hne
      | err e => rw [hs] at h2; cases h2
      | ub => rw [hs] at h2; cases h2
  have hset : ∀ (w w' : World) (o : Nat) (s : Slot) (f : Nat), (∀ k t, w.tab k = some t → t.size = 32) →
      setFunction junk w o s f = .ok w' → ∀ k t, w'.tab k = some t → t.size = 32 := by
    intro w w' o s f h1 h2
    rw [setFunction] at h2
    split at h2
    · rename_i w1 id e
      cases h2
      intro k t ht
      exact hfind _ w1 _ _ _ h1 e k t ht
    · cases h2
    · cases h2
  have hstep : ∀ (w w' : World) (c : Call), (∀ k t, w.tab k = some t → t.size = 32) →
      step junk w c = .ok w' → ∀ k t, w'.tab k = some t → t.size = 32 := by
    intro w w' c h1 h2
    cases c with
    | set o s f => exact hset _ _ _ _ _ h1 h2
    | register n f =>
      simp only [step, register] at h2
      split at h2
      · rename_i w1 id e
        have h3 := hfind _ _ _ _ _ h1 e
        split at h2
        · cases h2
        · rename_i t ht
          split at h2
          · cases h2
          · cases h2
            intro k' t' ht'
            simp only [World.put] at ht'
            split at ht'
            · cases ht'; exact h3 _ t ht
            · exact h3 _ _ ht'
      · cases h2
      · cases h2
    | select o s n =>
      simp only [step, selectFunction] at h2
      split at h2
      · exact hset _ _ _ _ _ h1 h2
      · cases h2
      · cases h2
      · cases h2
  have hrun : ∀ (cs : List Call) (w w' : World), (∀ k t, w.tab k = some t → t.size = 32) →
      run junk w cs = .ok w' → ∀ k t, w'.tab k = some t → t.size = 32 := by
    intro cs
    induction cs with
    | nil => intro w w' h1 h2; cases h2; exact h1
    | cons c cs ih =>
      intro w w' h1 h2
      rw [run] at h2
      split at h2
      · rename_i w1 e
        exact ih _ _ (hstep _ _ _ h1 e) h2
      · cases h2
      · cases h2
  exact hrun cs _ _ (by intro k t h; cases h) h k t ht

/-- Both kinds share one counter, which starts again with the first function of the second kind: after
two functions with real values and one with integer values the next one takes the place of the second. -/
theorem C197_overwrites (junk : Nat → List Char) (j o : Nat) (s1 s2 s3 : Slot) (a b g c : Nat)
    (h1 : s1.kind = .real) (h2 : s2.kind = .real) (h3 : s3.kind = .real) (h23 : s2 ≠ s3)
    (hab : a ≠ b) (hac : a ≠ c) (hbc : b ≠ c) :
    ∃ w, run junk (start j) [.set o s1 a, .set o s2 b, .set o .boundaryPressureType g, .set o s3 c] = .ok w
      ∧ lastSet [.set o s1 a, .set o s2 b, .set o .boundaryPressureType g, .set o s3 c] o s2 = some b
      ∧ evaluated w o s2 = .ok (some c) := by
  have h2' : s2 ≠ .boundaryPressureType := by rintro rfl; cases h2
  have h2'' : ¬ Slot.boundaryPressureType = s2 := fun h => h2' h.symm
  have h23' : ¬ s3 = s2 := fun h => h23 h.symm
  have hl : lastSet [.set o s1 a, .set o s2 b, .set o .boundaryPressureType g, .set o s3 c] o s2 = some b := by
    simp [lastSet, h23', h2'']
  have hb : Slot.kind .boundaryPressureType = .int := rfl
  simp only [hl, true_and]
  simp [run, step, setFunction, findOrAppend, start, h1, h2, h3, append, fresh, World.put, search,
    hb, evaluated, hab, hac, hbc, h23, h2']

/-- **C197 fails**: porosity, boundary pressure, type of the boundary condition, residual saturation. -/
theorem C197_violated : ¬ ∀ (junk : Nat → List Char) (j : Nat) (cs : List Call),
    (∀ c ∈ cs, ∃ o s f, c = .set o s f) →
    ∃ w, run junk (start j) cs = .ok w ∧ ∀ o s, evaluated w o s = .ok (lastSet cs o s) := by
  intro h
  obtain ⟨w, hw, he⟩ := h (fun _ => []) 0 [.set 0 .porosity 1, .set 0 .boundaryPressure 2,
    .set 0 .boundaryPressureType 3, .set 0 .residualSaturation 4] (by
      intro c hc
      simp only [List.mem_cons, List.not_mem_nil, or_false] at hc
      rcases hc with rfl | rfl | rfl | rfl <;> exact ⟨_, _, _, rfl⟩)
  obtain ⟨w', hw', hl, he'⟩ := C197_overwrites (fun _ => []) 0 0 .porosity .boundaryPressure
    .residualSaturation 1 2 3 4 rfl rfl rfl (by decide) (by decide) (by decide) (by decide)
  rw [hw] at hw'
  cases hw'
  have := he 0 .boundaryPressure
  rw [he', hl] at this
  cases this

/-! ## C198: functions selected by name -/

/-- A name of fewer than 32 characters cannot be used to select a function: the code takes its first 32
characters. -/
theorem C198_short_names_undefined (junk : Nat → List Char) (w : World) (o : Nat) (s : Slot) (n : List Char)
    (hn : n.length < 32) : selectFunction junk w o s n = .ub := by
  unfold selectFunction getFunction
  cases w.tab .real with
  | none => rfl
  | some t => simp only [if_pos hn]

theorem lookup_at (t : Table) (n : List Char) (i : Nat) (h1 : 1 ≤ i) (h2 : t.name i = n) : ∀ m, i ≤ m →
    (∀ j, i < j → j ≤ m → t.name j ≠ n) → lookup t n m = t.fn i := by
  intro m
  induction m with
  | zero => intro h; omega
  | succ m ih =>
    intro h h3
    rw [lookup]
    by_cases e : i = m + 1
    · subst e; rw [if_pos h2]
    · rw [if_neg (h3 (m + 1) (by omega) le_rfl)]
      exact ih (by omega) fun j hj hj' => h3 j hj (by omega)

theorem lookup_absent (t : Table) (n : List Char) : ∀ m, (∀ j, 1 ≤ j → j ≤ m → t.name j ≠ n) →
    lookup t n m = none := by
  intro m
  induction m with
  | zero => intro _; rfl
  | succ m ih =>
    intro h
    rw [lookup, if_neg (h (m + 1) (by omega) le_rfl)]
    exact ih fun j hj hj' => h j hj (by omega)

theorem pad_long {n : List Char} (h : 32 ≤ n.length) : pad n = n.take 32 := by
  unfold pad
  rw [List.take_append_of_le_length h]

/-- The names at positions 1, 2, … of the table. -/
def Named (junk : Nat → List Char) (t : Table) (ns : List (List Char)) : Prop :=
  ∀ i, 1 ≤ i → t.name i = (ns[i - 1]?).getD (junk i)

theorem registered (junk : Nat → List Char) : ∀ (rs : List (List Char × Nat)) (w : World)
    (ns : List (List Char)) (L : List Nat), ns.length = L.length →
    ((w.tab .real = none ∧ L = []) ∨ ∃ t, w.tab .real = some t ∧ Lists t L ∧ w.last = L.length + 1
      ∧ Named junk t ns) →
    (L ++ rs.map Prod.snd).Nodup → (L ++ rs.map Prod.snd).length ≤ 31 → rs ≠ [] →
    ∃ w' t, run junk w (rs.map fun r => Call.register r.1 r.2) = .ok w' ∧ w'.tab .real = some t
      ∧ Lists t (L ++ rs.map Prod.snd) ∧ w'.last = (L ++ rs.map Prod.snd).length + 1
      ∧ Named junk t (ns ++ rs.map fun r => pad r.1) := by
  intro rs
  induction rs with
  | nil => intro w ns L _ _ _ _ h; exact absurd rfl h
  | cons r rs ih =>
    obtain ⟨n, f⟩ := r
    intro w ns L hlen ha hn hl _
    have hf : f ∉ L := by
      intro hf
      exact (List.nodup_append.1 hn).2.2 f hf f (by simp) rfl
    have hl' : L.length ≤ 30 := by simp at hl; omega
    have e7 : L ++ ((n, f) :: rs).map Prod.snd = (L ++ [f]) ++ rs.map Prod.snd := by simp
    have e8 : ns ++ ((n, f) :: rs).map (fun r => pad r.1) = (ns ++ [pad n]) ++ rs.map (fun r => pad r.1) := by
      simp
    have key : ∃ w1 t1, step junk w (.register n f) = .ok w1 ∧ w1.tab .real = some t1
        ∧ Lists t1 (L ++ [f]) ∧ w1.last = (L ++ [f]).length + 1 ∧ Named junk t1 (ns ++ [pad n]) := by
      have names : ∀ t : Table, (∀ i, 1 ≤ i → t.name i = (ns[i - 1]?).getD (junk i)) →
          ∀ i, 1 ≤ i → (if i = L.length + 1 then pad n else t.name i)
            = ((ns ++ [pad n])[i - 1]?).getD (junk i) := by
        intro t h i hi
        by_cases e : i = L.length + 1
        · rw [if_pos e]; subst e
          simp [← hlen]
        · rw [if_neg e, h i hi]
          by_cases e2 : i - 1 < ns.length
          · rw [List.getElem?_append_left e2]
          · rw [List.getElem?_eq_none (by omega), List.getElem?_eq_none (by simp; omega)]
      rcases ha with ⟨h1, rfl⟩ | ⟨t, h1, h2, h3, h4⟩
      · have hns : ns = [] := List.eq_nil_of_length_eq_zero hlen
        subst hns
        have hL := lists_added (fresh_lists junk) hf (by decide)
        refine ⟨w.put .real ⟨32, fun i => if i = 1 then some f else none,
          fun i => if i = 1 then pad n else junk i⟩ 2, ⟨32, fun i => if i = 1 then some f else none,
          fun i => if i = 1 then pad n else junk i⟩, ?_, by simp [World.put], ⟨rfl, hL.fn, hL.nodup, hL.short⟩,
          rfl, ?_⟩
        · have : findOrAppend junk w .real f
              = .ok (w.put .real ⟨32, fun i => if i = 1 then some f else none, junk⟩ 2, 1) := by
            rw [findOrAppend, h1]
            simp [append, fresh]
          simp only [step, register, this]
          simp only [World.put, if_true]
          rw [if_neg (by decide)]
          congr 1
          simp only [World.mk.injEq, and_true]
          funext k'
          split <;> rfl
        · exact names ⟨32, fun _ => none, junk⟩ (by intro i hi; simp)
      · have hne : ∀ j, 1 ≤ j → t.fn j ≠ some f := by
          intro j hj ej
          rw [h2.fn j hj, List.getElem?_eq_some_iff] at ej
          obtain ⟨hj, ej⟩ := ej
          exact hf (ej ▸ List.getElem_mem hj)
        have hsearch : search t f w.last 1 = .ok (1 + w.last) :=
          search_absent t f w.last 1 (by rw [h2.size, h3]; omega) fun j hj _ => hne j hj
        have hL := lists_added h2 hf hl'
        have happ : findOrAppend junk w .real f = .ok (w.put .real
            ⟨t.size, fun i => if i = L.length + 1 then some f else t.fn i, t.name⟩ (L.length + 1 + 1),
            L.length + 1) := by
          rw [findOrAppend, h1]
          simp only [hsearch]
          rw [append, if_neg (by rw [h2.size, h3]; omega), if_neg (hne _ (by omega))]
          have hg : ¬ t.size < L.length + 1 := by rw [h2.size]; omega
          simp only [h3, if_neg hg]
        refine ⟨w.put .real ⟨t.size, fun i => if i = L.length + 1 then some f else t.fn i,
          fun i => if i = L.length + 1 then pad n else t.name i⟩ (L.length + 1 + 1),
          ⟨t.size, fun i => if i = L.length + 1 then some f else t.fn i,
          fun i => if i = L.length + 1 then pad n else t.name i⟩, ?_, by simp [World.put],
          ⟨hL.size, hL.fn, hL.nodup, hL.short⟩, by simp [World.put], names t h4⟩
        have hg : ¬ t.size < L.length + 1 := by rw [h2.size]; omega
        simp only [step, register, happ]
        simp only [World.put, if_true]
        rw [if_neg hg]
        congr 1
        simp only [World.mk.injEq, and_true]
        funext k'
        split <;> rfl
    obtain ⟨w1, t1, k1, k2, k3, k4, k5⟩ := key
    rw [e7, e8]
    rw [e7] at hn hl
    by_cases hrs : rs = []
    · subst hrs
      refine ⟨w1, t1, ?_, k2, by simpa using k3, by simpa using k4, by simpa using k5⟩
      rw [List.map_cons, run, k1]
      rfl
    · obtain ⟨w', t, r1, r2⟩ := ih w1 (ns ++ [pad n]) (L ++ [f]) (by simp [hlen])
        (.inr ⟨t1, k2, k3, k4, k5⟩) hn hl hrs
      refine ⟨w', t, ?_, r2⟩
      rw [List.map_cons, run, k1]
      exact r1

theorem lastNamed_cons (m : List Char) (g : Nat) (cs : List Call) (n : List Char) :
    lastNamed (.register m g :: cs) n
      = match lastNamed cs n with
        | some f => some f
        | none => if m = n then some g else none := by
  simp only [lastNamed]
  cases lastNamed cs n <;> rfl

theorem lastNamed_at : ∀ (rs : List (List Char × Nat)) (n : List Char) (f : Nat),
    lastNamed (rs.map fun r => Call.register r.1 r.2) n = some f →
    ∃ i, ∃ hi : i < rs.length, rs[i] = (n, f) ∧ ∀ q, i < q → ∀ hq : q < rs.length, rs[q].1 ≠ n := by
  intro rs n f
  induction rs with
  | nil => intro h; cases h
  | cons r rs ih =>
    intro h
    rw [List.map_cons, lastNamed_cons] at h
    cases e : lastNamed (rs.map fun r => Call.register r.1 r.2) n with
    | some g =>
      rw [e] at h
      obtain ⟨i, hi, h1, h2⟩ := ih (by rw [e]; exact h)
      refine ⟨i + 1, by simpa using hi, by simpa using h1, ?_⟩
      intro q hq hq'
      obtain ⟨q, rfl⟩ : ∃ k, q = k + 1 := ⟨q - 1, by omega⟩
      simpa using h2 q (by omega) (by simpa using hq')
    | none =>
      rw [e] at h
      simp only at h
      have hnone : ∀ (rs : List (List Char × Nat)), lastNamed (rs.map fun r => Call.register r.1 r.2) n = none →
          ∀ r ∈ rs, r.1 ≠ n := by
        intro rs
        induction rs with
        | nil => intro _ r hr; cases hr
        | cons r rs ih =>
          intro h r' hr'
          rw [List.map_cons, lastNamed_cons] at h
          cases e : lastNamed (rs.map fun r => Call.register r.1 r.2) n with
          | some g => rw [e] at h; cases h
          | none =>
            rw [e] at h
            simp only at h
            rcases List.mem_cons.1 hr' with rfl | h'
            · intro hh; rw [if_pos hh] at h; cases h
            · exact ih e r' h'
      by_cases hh : r.1 = n
      · rw [if_pos hh] at h
        refine ⟨0, by simp, ?_, ?_⟩
        · cases h; subst hh; rfl
        · intro q hq hq'
          obtain ⟨q, rfl⟩ : ∃ k, q = k + 1 := ⟨q - 1, by omega⟩
          exact hnone rs e _ (by simp)
      · rw [if_neg hh] at h; cases h

/-- **C198, partial.**  For at most 31 different functions, registered once each under names of at least 32
characters that differ in the first 32 if they differ at all, provided that the memory of the table does not
contain one of the names by chance: selecting a name sets the function that was last registered under it.
Missing: shorter names and functions that are registered twice, both of which fail. -/
theorem C198_selected_partial (junk : Nat → List Char) (j : Nat) (rs : List (List Char × Nat))
    (hf : (rs.map Prod.snd).Nodup)
    (hn : ∀ r ∈ rs, ∀ r' ∈ rs, r.1.take 32 = r'.1.take 32 → r.1 = r'.1)
    (hlong : ∀ r ∈ rs, 32 ≤ r.1.length) (hl : rs.length ≤ 31)
    (hjunk : ∀ r ∈ rs, ∀ i, junk i ≠ r.1.take 32)
    (n : List Char) (f : Nat) (hlast : lastNamed (rs.map fun r => Call.register r.1 r.2) n = some f)
    (o : Nat) (s : Slot) (hs : s.kind = .real) :
    ∃ w w', run junk (start j) (rs.map fun r => Call.register r.1 r.2) = .ok w
      ∧ selectFunction junk w o s n = .ok w' ∧ evaluated w' o s = .ok (some f) := by
  obtain ⟨i, hi, he, hlater⟩ := lastNamed_at rs n f hlast
  obtain ⟨r, hrr⟩ : ∃ r : List Char × Nat, r = (n, f) := ⟨_, rfl⟩
  have hr : r ∈ rs := by rw [hrr, ← he]; exact List.getElem_mem hi
  rw [show n = r.1 by rw [hrr], show f = r.2 by rw [hrr]]
  rw [← hrr] at he
  replace hlater : ∀ q, i < q → ∀ hq : q < rs.length, rs[q].1 ≠ r.1 := by
    rw [show r.1 = n by rw [hrr]]; exact hlater
  clear hlast
  obtain ⟨w, t, r1, r2, r3, r4, r5⟩ := registered junk rs (start j) [] [] rfl (.inl ⟨rfl, rfl⟩)
    (by simpa using hf) (by simpa using hl) (List.ne_nil_of_mem hr)
  simp only [List.nil_append] at r3 r4 r5
  have hname : ∀ q, 1 ≤ q → q ≤ rs.length → ∀ hq : q - 1 < rs.length, t.name q = (rs[q - 1]).1.take 32 := by
    intro q h1 h2 hq
    rw [r5 q h1]
    simp only [List.getElem?_map, List.getElem?_eq_getElem hq, Option.map_some, Option.getD_some]
    exact pad_long (hlong _ (List.getElem_mem hq))
  have hhere : t.name (i + 1) = r.1.take 32 := by
    rw [hname (i + 1) (by omega) (by omega) (by simpa using hi)]
    simp [he]
  have hlook : lookup t (r.1.take 32) t.size = t.fn (i + 1) := by
    refine lookup_at t _ (i + 1) (by omega) hhere t.size (by rw [r3.size]; omega) ?_
    intro q hq1 hq2 e
    by_cases hq : q ≤ rs.length
    · rw [hname q (by omega) hq (by omega)] at e
      exact hlater (q - 1) (by omega) (by omega) (hn _ (List.getElem_mem (by omega)) _ hr e)
    · rw [r5 q (by omega), List.getElem?_eq_none (by simp; omega)] at e
      exact hjunk r hr q e
  have hfn : t.fn (i + 1) = some r.2 := by
    rw [r3.fn (i + 1) (by omega)]
    simp [he, hi]
  have hget : getFunction w r.1 = .ok (some r.2) := by
    simp only [getFunction, r2]
    rw [if_neg (by have := hlong r hr; omega), hlook, hfn]
  have hmem : r.2 ∈ rs.map Prod.snd := List.mem_map_of_mem hr
  have hadd : added (rs.map Prod.snd) r.2 = rs.map Prod.snd := if_pos hmem
  obtain ⟨w1, id, e1, e2, e3, ⟨t', e4, e5, e6⟩, i1, i2, i3⟩ := findOrAppend_active junk w .real
    (rs.map Prod.snd) (.inr ⟨t, r2, r3, r4⟩) r.2 (by rw [hadd]; simpa using hl)
  refine ⟨w, ⟨w1.tab, w1.last, fun o' s' => if o' = o ∧ s' = s then some id else w1.held o' s'⟩, r1, ?_, ?_⟩
  · simp only [selectFunction, hget, setFunction, hs, e1]
  · simp only [evaluated, and_self, if_true, hs, e4]
    rw [if_neg (by rw [e5.size]; omega), e5.fn id i1, i3]

/-- Two names of 33 characters, one of them registered again, and memory full of blanks. -/
def threeNames : List (List Char × Nat) :=
  [(List.replicate 32 'a' ++ ['x'], 1), (List.replicate 33 'b', 2), (List.replicate 32 'a' ++ ['x'], 3)]

example : (threeNames.map Prod.snd).Nodup
    ∧ (∀ r ∈ threeNames, ∀ r' ∈ threeNames, r.1.take 32 = r'.1.take 32 → r.1 = r'.1)
    ∧ (∀ r ∈ threeNames, 32 ≤ r.1.length ∧ List.replicate 32 ' ' ≠ r.1.take 32)
    ∧ lastNamed (threeNames.map fun r => Call.register r.1 r.2) (List.replicate 32 'a' ++ ['x']) = some 3 := by
  decide

/-- A function keeps only the last name it was registered under: the first one no longer selects it. -/
theorem C198_second_name_replaces (junk : Nat → List Char) (j o : Nat) (s : Slot) (n m : List Char) (f : Nat)
    (hn : 32 ≤ n.length) (hm : 32 ≤ m.length) (hnm : n.take 32 ≠ m.take 32)
    (hjunk : ∀ i, junk i ≠ n.take 32) :
    run junk (start j) [.register n f, .register m f, .select o s n] = .ub := by
  have hf1 : ∀ w : World, w.tab .real = none → findOrAppend junk w .real f
      = .ok (w.put .real ⟨32, fun i => if i = 1 then some f else none, junk⟩ 2, 1) := by
    intro w h
    rw [findOrAppend, h]
    simp [append, fresh]
  have hr1 : step junk (start j) (.register n f) = .ok ((start j).put .real
      ⟨32, fun i => if i = 1 then some f else none, fun i => if i = 1 then pad n else junk i⟩ 2) := by
    simp only [step, register, hf1 (start j) rfl]
    simp only [World.put, if_true]
    rw [if_neg (by decide)]
    congr 1
    simp only [World.mk.injEq, and_true]
    funext k'
    split <;> rfl
  have hr2 : step junk ((start j).put .real
      ⟨32, fun i => if i = 1 then some f else none, fun i => if i = 1 then pad n else junk i⟩ 2)
      (.register m f) = .ok ((start j).put .real
      ⟨32, fun i => if i = 1 then some f else none, fun i => if i = 1 then pad m else junk i⟩ 2) := by
    simp only [step, register, findOrAppend, World.put, if_true, search]
    simp only [append, World.put]
    simp only [show ¬ (32 : Nat) < 1 by decide, show (1 : Nat) ≤ 32 by decide, if_true, if_false]
    congr 1
    simp only [World.mk.injEq, and_true]
    funext k'
    split
    · simp only [Option.some.injEq, Table.mk.injEq, true_and]
      funext i
      split <;> rfl
    · rfl
  rw [run, hr1]
  simp only
  rw [run, hr2]
  simp only
  rw [run]
  have hl : lookup ⟨32, fun i => if i = 1 then some f else none, fun i => if i = 1 then pad m else junk i⟩
      (n.take 32) 32 = none := by
    refine lookup_absent _ _ _ ?_
    intro q _ _
    show (if q = 1 then pad m else junk q) ≠ _
    split
    · rw [pad_long hm]; exact hnm.symm
    · exact hjunk q
  simp only [step, selectFunction, getFunction, World.put, if_true]
  rw [if_neg (by omega), hl]

/-- **C198 fails**, for the simplest program. -/
theorem C198_violated : ¬ ∀ (junk : Nat → List Char) (j : Nat) (cs : List Call) (w : World) (o : Nat) (s : Slot)
    (n : List Char) (f : Nat), run junk (start j) cs = .ok w → lastNamed cs n = some f →
    ∃ w', selectFunction junk w o s n = .ok w' ∧ evaluated w' o s = .ok (some f) := by
  intro h
  obtain ⟨w, t, r1, -⟩ := registered (fun _ => []) [(['p'], 1)] (start 0) [] [] rfl (.inl ⟨rfl, rfl⟩)
    (by decide) (by decide) (by simp)
  obtain ⟨w', hw', -⟩ := h (fun _ => []) 0 [.register ['p'] 1] w 0 .porosity ['p'] 1 r1 (by decide)
  rw [C198_short_names_undefined _ _ _ _ _ (by decide)] at hw'
  cases hw'

/-! ## C199: coordinates and values of a Fortran function -/

/-- A Fortran function can read coordinate `j` of point `i` exactly if it is among the first `n` of the `dim n`
numbers. -/
theorem C199_coordinate_iff (dim i j n : Nat) (x f : Nat → ℝ) :
    (∃ v, callFunction (readsCoordinate dim i j) n x f = .ok v) ↔ dim*i + j < n := by
  unfold callFunction readsCoordinate View.get
  by_cases h : dim*i + j < n
  · simp only [h, iff_true]
    exact ⟨_, rfl⟩
  · simp only [h, iff_false]
    rintro ⟨v, hv⟩
    cases hv

/-- **C199, partial.**  In one dimension all coordinates are there. -/
theorem C199_coordinates_partial (i n : Nat) (hi : i < n) (x f : Nat → ℝ) :
    callFunction (readsCoordinate 1 i 0) n x f = .ok fun k => if k = i then x i else f k := by
  simp [callFunction, readsCoordinate, View.get, hi]

example : (0 : Nat) < 1 := by decide

/-- **C199 fails**: of a single point in space only the first coordinate can be read. -/
theorem C199_violated : ¬ ∀ (dim n i j : Nat) (x f : Nat → ℝ), i < n → j < dim →
    ∃ v, callFunction (readsCoordinate dim i j) n x f = .ok v := by
  intro h
  have := (C199_coordinate_iff 3 0 2 1 (fun _ => 0) (fun _ => 0)).1
    (h 3 1 0 2 _ _ (by decide) (by decide))
  omega

/-- A function that gives the same number everywhere sets it at all points, and nothing else. -/
theorem C199_scalar_values (c : ℝ) (n : Nat) (x f : Nat → ℝ) :
    ∃ v, callFunction (fillsWith c) n x f = .ok v ∧ (∀ i < n, v i = c) ∧ ∀ i, n ≤ i → v i = f i := by
  refine ⟨_, rfl, fun i hi => if_pos hi, fun i hi => if_neg (Nat.not_lt.2 hi)⟩

/-- For a vector (`dim n` values) that is not enough: with more than one component the last component of
the last point keeps what was there. -/
theorem C199_vector_values_not_set (c : ℝ) (dim n : Nat) (hd : 2 ≤ dim) (hn : 0 < n) (x f : Nat → ℝ) :
    ∃ v, callFunction (fillsWith c) n x f = .ok v ∧ v (dim*(n - 1) + (dim - 1)) = f (dim*(n - 1) + (dim - 1)) := by
  refine ⟨_, rfl, if_neg ?_⟩
  show ¬ dim*(n - 1) + (dim - 1) < n
  have : 2*(n - 1) ≤ dim*(n - 1) := Nat.mul_le_mul_right _ hd
  omega

/-- An isotropic tensor given by a function that is the same everywhere: the value on the diagonal and zero
beside it, at all points, whatever was there. -/
theorem C199_isotropic_tensor (c : ℝ) (dim n : Nat) (x tmp f : Nat → ℝ) :
    ∃ v, isotropicTensor (fillsWith c) dim n x tmp f = .ok v ∧
      ∀ i < n, ∀ a < dim, ∀ b < dim, v (dim*dim*i + (a*dim + b)) = if a = b then c else 0 := by
  refine ⟨_, rfl, ?_⟩
  intro i hi a ha b hb
  have hab : a*dim + b < dim*dim := by
    have : (a + 1)*dim ≤ dim*dim := Nat.mul_le_mul_right _ ha
    rw [Nat.add_mul, Nat.one_mul] at this
    omega
  have hd : 0 < dim*dim := by omega
  have h1 : dim*dim*i + (a*dim + b) < dim*dim*n := by
    have : dim*dim*(i + 1) ≤ dim*dim*n := Nat.mul_le_mul_left _ hi
    rw [Nat.mul_add, Nat.mul_one] at this
    omega
  have h2 : (dim*dim*i + (a*dim + b)) % (dim*dim) = a*dim + b := by
    rw [Nat.mul_add_mod, Nat.mod_eq_of_lt hab]
  have h3 : (dim*dim*i + (a*dim + b)) / (dim*dim) = i := by
    rw [Nat.mul_add_div hd, Nat.div_eq_of_lt hab, Nat.add_zero]
  have h4 : (a*dim + b) / dim = a := by
    rw [Nat.mul_comm, Nat.mul_add_div (by omega), Nat.div_eq_of_lt hb, Nat.add_zero]
  have h5 : (a*dim + b) % dim = b := by
    rw [Nat.mul_comm, Nat.mul_add_mod, Nat.mod_eq_of_lt hb]
  show (if dim*dim*i + (a*dim + b) < dim*dim*n then
    (if (dim*dim*i + (a*dim + b)) % (dim*dim) / dim = (dim*dim*i + (a*dim + b)) % (dim*dim) % dim then
      (if (dim*dim*i + (a*dim + b)) / (dim*dim) < n then c else tmp _) else 0) else f _) = _
  rw [if_pos h1, h2, h3, h4, h5, if_pos hi]

/-- A diagonal tensor keeps beside its diagonal what was there. -/
theorem C199_diagonal_tensor_keeps (U : UserFn) (dim n : Nat) (x tmp f v : Nat → ℝ)
    (h : diagonalTensor U dim n x tmp f = .ok v) (i a b : Nat) (ha : a < dim) (hb : b < dim) (hab : a ≠ b) :
    v (dim*dim*i + (a*dim + b)) = f (dim*dim*i + (a*dim + b)) := by
  unfold diagonalTensor at h
  split at h
  · cases h
    have hab' : a*dim + b < dim*dim := by
      have : (a + 1)*dim ≤ dim*dim := Nat.mul_le_mul_right _ ha
      rw [Nat.add_mul, Nat.one_mul] at this
      omega
    have h2 : (dim*dim*i + (a*dim + b)) % (dim*dim) = a*dim + b := by
      rw [Nat.mul_add_mod, Nat.mod_eq_of_lt hab']
    have h4 : (a*dim + b) / dim = a := by
      rw [Nat.mul_comm, Nat.mul_add_div (by omega), Nat.div_eq_of_lt hb, Nat.add_zero]
    have h5 : (a*dim + b) % dim = b := by
      rw [Nat.mul_comm, Nat.mul_add_mod, Nat.mod_eq_of_lt hb]
    refine if_neg ?_
    rw [h2, h4, h5]
    exact fun hh => hab hh.2
  · cases h
  · cases h

/-- On the diagonal of point `i` it has the values number `dim i`, ..., `dim i + dim - 1` that the
function of the user gives. -/
theorem C199_diagonal_tensor_values (U : UserFn) (dim n : Nat) (x tmp f v g : Nat → ℝ)
    (h : diagonalTensor U dim n x tmp f = .ok v) (hg : callFunction U n x tmp = .ok g) (i a : Nat) (hi : i < n)
    (ha : a < dim) : v (dim*dim*i + (a*dim + a)) = g (dim*i + a) := by
  unfold diagonalTensor at h
  rw [hg] at h
  cases h
  have hab' : a*dim + a < dim*dim := by
    have : (a + 1)*dim ≤ dim*dim := Nat.mul_le_mul_right _ ha
    rw [Nat.add_mul, Nat.one_mul] at this
    omega
  have h1 : dim*dim*i + (a*dim + a) < dim*dim*n := by
    have : dim*dim*(i + 1) ≤ dim*dim*n := Nat.mul_le_mul_left _ hi
    rw [Nat.mul_add, Nat.mul_one] at this
    omega
  have h2 : (dim*dim*i + (a*dim + a)) % (dim*dim) = a*dim + a := by
    rw [Nat.mul_add_mod, Nat.mod_eq_of_lt hab']
  have h3 : (dim*dim*i + (a*dim + a)) / (dim*dim) = i := by
    rw [Nat.mul_add_div (by omega), Nat.div_eq_of_lt hab', Nat.add_zero]
  have h4 : (a*dim + a) / dim = a := by
    rw [Nat.mul_comm, Nat.mul_add_div (by omega), Nat.div_eq_of_lt ha, Nat.add_zero]
  have h5 : (a*dim + a) % dim = a := by
    rw [Nat.mul_comm, Nat.mul_add_mod, Nat.mod_eq_of_lt ha]
  show (if dim*dim*i + (a*dim + a) < dim*dim*n
      ∧ (dim*dim*i + (a*dim + a)) % (dim*dim) / dim = (dim*dim*i + (a*dim + a)) % (dim*dim) % dim then
    g (dim*((dim*dim*i + (a*dim + a)) / (dim*dim)) + (dim*dim*i + (a*dim + a)) % (dim*dim) / dim) else f _) = _
  rw [if_pos ⟨h1, by rw [h2, h4, h5]⟩, h2, h3, h4]

example (f : Nat → ℝ) : (∃ v, diagonalTensor (fillsWith 1) 3 1 (fun _ => 0) (fun _ => 0) f = .ok v)
    ∧ ∃ g, callFunction (fillsWith 1) 1 (fun _ => 0) (fun _ => 0) = .ok g := ⟨⟨_, rfl⟩, _, rfl⟩

example (f : Nat → ℝ) : ∃ v, diagonalTensor (fillsWith 1) 3 1 (fun _ => 0) (fun _ => 0) f = .ok v := ⟨_, rfl⟩

/-! ## C200: constructors of meshes -/

/-- The constructor set last, for whatever object. -/
theorem C200_last_of_any_object (o : Nat) (cs : List MeshCall) (m : Meshes) (hm : m.made o = none)
    (same : ∀ o' c, MeshCall.setConstructor o' c ∈ cs → o' = o) :
    (meshRun m cs).made o = wantedMesh o m.ctor cs := by
  induction cs generalizing m with
  | nil => exact hm
  | cons c cs ih =>
    have hkeep : ∀ (cs : List MeshCall) (m : Meshes) (r : Option Nat), m.made o = some r →
        (meshRun m cs).made o = some r := by
      intro cs
      induction cs with
      | nil => intro m r h; exact h
      | cons c cs ih =>
        intro m r h
        refine ih (meshStep m c) r ?_
        cases c with
        | setConstructor o' c => exact h
        | setFromOptions o' =>
          simp only [meshStep]
          split
          · exact h
          · rename_i hn
            by_cases e : o = o'
            · subst e; rw [hn] at h; cases h
            · show (if o = o' then some m.ctor else m.made o) = some r
              rw [if_neg e]; exact h
    cases c with
    | setConstructor o' c =>
      have e := same o' c List.mem_cons_self
      have := ih (meshStep m (.setConstructor o' c)) hm fun a b hb => same a b (List.mem_cons_of_mem _ hb)
      rw [wantedMesh, if_pos e]
      exact this
    | setFromOptions o' =>
      rw [wantedMesh]
      by_cases e : o' = o
      · subst e
        rw [if_pos rfl]
        refine hkeep cs (meshStep m (.setFromOptions o')) m.ctor ?_
        simp only [meshStep, hm, if_true]
      · rw [if_neg e]
        have hs : (meshStep m (.setFromOptions o')).made o = none ∧ (meshStep m (.setFromOptions o')).ctor = m.ctor := by
          simp only [meshStep]
          split
          · exact ⟨hm, rfl⟩
          · refine ⟨?_, rfl⟩
            show (if o = o' then some m.ctor else m.made o) = none
            rw [if_neg fun h => e h.symm]; exact hm
        have := ih (meshStep m (.setFromOptions o')) hs.1 fun a b hb => same a b (List.mem_cons_of_mem _ hb)
        rw [hs.2] at this
        exact this

/-- **C200, partial.**  In a program that gives constructors for one object only, the mesh of this object is made
by the constructor given last before its options are set.  Missing: several objects, which share the
constructor. -/
theorem C200_own_constructor_partial (o : Nat) (cs : List MeshCall)
    (same : ∀ o' c, MeshCall.setConstructor o' c ∈ cs → o' = o) :
    (meshRun noMeshes cs).made o = wantedMesh o none cs :=
  C200_last_of_any_object o cs noMeshes rfl same

example : (∀ o' c, MeshCall.setConstructor o' c ∈ [MeshCall.setFromOptions 1, .setConstructor 0 7, .setConstructor 0 8,
      .setFromOptions 0, .setConstructor 0 9] → o' = 0)
    ∧ wantedMesh 0 none [.setFromOptions 1, .setConstructor 0 7, .setConstructor 0 8, .setFromOptions 0,
      .setConstructor 0 9] = some (some 8) := by
  refine ⟨?_, rfl⟩
  intro o' c h
  simp only [List.mem_cons, List.not_mem_nil, or_false, reduceCtorEq, false_or, MeshCall.setConstructor.injEq] at h
  rcases h with ⟨h, -⟩ | ⟨h, -⟩ | ⟨h, -⟩ <;> exact h

/-- **C200 fails**: a second object gets the mesh of the first one. -/
theorem C200_violated : ¬ ∀ (cs : List MeshCall) (o : Nat), (meshRun noMeshes cs).made o = wantedMesh o none cs := by
  intro h
  have := h [.setConstructor 0 7, .setFromOptions 0, .setFromOptions 1] 1
  revert this
  decide

/-! ## C201: constants -/

/-- **C201, partial.**  Every name of the Fortran interface stands for the mode, method or law of that name in C.
Missing: one mode, one method and one law have no name (`C201_missing_names`). -/
theorem C201_names_agree_partial (n : Name) :
    (∀ m, meantMode n = some m → modeOf n.value = some m)
    ∧ (∀ d, meantDisc n = some d → discOf n.value = some d)
    ∧ (∀ r, meantDensity n = some r → densityOf n.value = some r)
    ∧ ((meantMode n).isSome ∨ (meantDisc n).isSome ∨ (meantDensity n).isSome) := by
  cases n <;> simp [meantMode, meantDisc, meantDensity, modeOf, discOf, densityOf, Name.value]

/-- **C201 fails**: exactly the salinity mode, the two-point method and the law of Batzle and Wang have no name. -/
theorem C201_missing_names :
    (∀ m, (∃ n, meantMode n = some m) ↔ m ≠ .salinity)
    ∧ (∀ d, (∃ n, meantDisc n = some d) ↔ d ≠ .fvTpf)
    ∧ ∀ r, (∃ n, meantDensity n = some r) ↔ r ≠ .batzleAndWang := by
  refine ⟨?_, ?_, ?_⟩
  · intro m
    constructor
    · rintro ⟨n, hn⟩ rfl
      cases n <;> cases hn
    · intro h
      cases m with
      | richards => exact ⟨.RICHARDS, rfl⟩
      | th => exact ⟨.TH, rfl⟩
      | salinity => exact absurd rfl h
  · intro d
    constructor
    · rintro ⟨n, hn⟩ rfl
      cases n <;> cases hn
    · intro h
      cases d with
      | mpfaO => exact ⟨.MPFA_O, rfl⟩
      | mpfaODae => exact ⟨.MPFA_O_DAE, rfl⟩
      | mpfaOTransientVar => exact ⟨.MPFA_O_TRANSIENT_VAR, rfl⟩
      | bdm => exact ⟨.BDM, rfl⟩
      | wy => exact ⟨.WY, rfl⟩
      | fvTpf => exact absurd rfl h
  · intro r
    constructor
    · rintro ⟨n, hn⟩ rfl
      cases n <;> cases hn
    · intro h
      cases r with
      | constant => exact ⟨.WATER_DENSITY_CONSTANT, rfl⟩
      | exponential => exact ⟨.WATER_DENSITY_EXPONENTIAL, rfl⟩
      | batzleAndWang => exact absurd rfl h

end TDy.Fortran.Props
