import Verif.Spec.Fortran
import Mathlib.Data.List.Basic
import Mathlib.Data.Finset.Card
import Mathlib.Data.Finset.Dedup
import Mathlib.Tactic.Linarith

/-!
# Lemmas about the tables of the Fortran interface
-/

namespace TDy.Fortran.Proofs

open TDy TDy.Fortran TDy.Fortran.Spec

/-- The table holds the functions `L` at positions 1, 2, … and nothing else. -/
structure Lists (t : Table) (L : List Nat) : Prop where
  size : t.size = 32
  fn : ∀ i, 1 ≤ i → t.fn i = L[i - 1]?
  nodup : L.Nodup
  short : L.length ≤ 31

theorem search_found (t : Table) (f : Nat) : ∀ (n id i : Nat), id ≤ i → i < id + n → i ≤ t.size →
    t.fn i = some f → (∀ j, id ≤ j → j < i → t.fn j ≠ some f) → search t f n id = .ok i := by
  intro n
  induction n with
  | zero => intro id i h1 h2; omega
  | succ n ih =>
    intro id i h1 h2 h3 h4 h5
    rw [search, if_pos (by omega)]
    by_cases e : t.fn id = some f
    · rw [if_pos e]
      have : id = i := by
        by_contra hne
        exact h5 id le_rfl (by omega) e
      rw [this]
    · rw [if_neg e]
      have hne : id ≠ i := fun h => e (h ▸ h4)
      exact ih (id + 1) i (by omega) (by omega) h3 h4 fun j hj => h5 j (by omega)

theorem search_absent (t : Table) (f : Nat) : ∀ (n id : Nat), id + n ≤ t.size + 1 →
    (∀ j, id ≤ j → j < id + n → t.fn j ≠ some f) → search t f n id = .ok (id + n) := by
  intro n
  induction n with
  | zero => intro id _ _; rfl
  | succ n ih =>
    intro id h1 h2
    rw [search, if_pos (by omega), if_neg (h2 id le_rfl (by omega)),
      ih (id + 1) (by omega) fun j hj hj' => h2 j (by omega) (by omega)]
    congr 1
    omega

theorem search_beyond (t : Table) (f : Nat) : ∀ (n id : Nat), id ≤ t.size + 1 → t.size + 1 < id + n →
    (∀ j, id ≤ j → j ≤ t.size → t.fn j ≠ some f) → search t f n id = .ub := by
  intro n
  induction n with
  | zero => intro id h1 h2; omega
  | succ n ih =>
    intro id h1 h2 h3
    rw [search]
    by_cases e : id ≤ t.size
    · rw [if_pos e, if_neg (h3 id le_rfl e)]
      exact ih (id + 1) (by omega) (by omega) fun j hj => h3 j (by omega)
    · rw [if_neg e]

theorem search_no_err (t : Table) (f : Nat) : ∀ (n id : Nat) (e : Nat), search t f n id ≠ .err e := by
  intro n
  induction n with
  | zero => intro id e h; cases h
  | succ n ih =>
    intro id e
    rw [search]
    split
    · split
      · intro h; cases h
      · exact ih _ _
    · intro h; cases h

/-- Where a search that comes to an end has ended. -/
theorem search_ok (t : Table) (f : Nat) : ∀ (n id i : Nat), search t f n id = .ok i →
    (i = id + n ∧ (n = 0 ∨ id + n ≤ t.size + 1)) ∨ t.fn i = some f ∧ i ≤ t.size := by
  intro n
  induction n with
  | zero => intro id i h; left; cases h; exact ⟨rfl, .inl rfl⟩
  | succ n ih =>
    intro id i h
    rw [search] at h
    split at h
    · split at h
      · cases h; right; constructor <;> assumption
      · rcases ih _ _ h with ⟨h1, h2⟩ | h1
        · left; exact ⟨by omega, .inr (by rcases h2 with h2 | h2 <;> omega)⟩
        · exact .inr h1
    · cases h

theorem fresh_lists (junk : Nat → List Char) : Lists (fresh junk) [] :=
  ⟨rfl, fun i _ => by simp [fresh], List.nodup_nil, by decide⟩

theorem Lists.find {t : Table} {L : List Nat} (h : Lists t L) {f : Nat} (hf : f ∈ L) :
    ∃ i, 1 ≤ i ∧ i ≤ L.length ∧ L[i - 1]? = some f ∧ ∀ j, 1 ≤ j → j < i → t.fn j ≠ some f := by
  obtain ⟨i, hi, he⟩ := List.getElem_of_mem hf
  refine ⟨i + 1, by omega, by omega, by simp [he, hi], ?_⟩
  intro j h1 h2 e
  rw [h.fn j h1, List.getElem?_eq_some_iff] at e
  obtain ⟨hj, e⟩ := e
  have := (List.Nodup.getElem_inj_iff h.nodup).1 (e.trans he.symm)
  omega

/-- What a table of the kind is while only functions of this kind are set. -/
def Active (w : World) (k : Kind) (L : List Nat) : Prop :=
  (w.tab k = none ∧ L = []) ∨ ∃ t, w.tab k = some t ∧ Lists t L ∧ w.last = L.length + 1

/-- The list of functions after one more. -/
def added (L : List Nat) (f : Nat) : List Nat := if f ∈ L then L else L ++ [f]

theorem lists_added {t : Table} {L : List Nat} (h : Lists t L) {f : Nat} (hf : f ∉ L)
    (hl : L.length ≤ 30) :
    Lists ⟨t.size, fun i => if i = L.length + 1 then some f else t.fn i, t.name⟩ (L ++ [f]) := by
  refine ⟨h.size, ?_, ?_, by simp; omega⟩
  · intro i hi
    show (if i = L.length + 1 then some f else t.fn i) = _
    by_cases e : i = L.length + 1
    · subst e; simp
    · rw [if_neg e, h.fn i hi]
      by_cases e2 : i - 1 < L.length
      · rw [List.getElem?_append_left e2]
      · rw [List.getElem?_eq_none (by omega), List.getElem?_eq_none (by simp; omega)]
  · exact List.nodup_append.2 ⟨h.nodup, by simp, by
      intro a ha b hb
      simp only [List.mem_singleton] at hb
      subst hb
      intro e
      subst e
      exact hf ha⟩

theorem findOrAppend_active (junk : Nat → List Char) (w : World) (k : Kind) (L : List Nat)
    (h : Active w k L) (f : Nat) (hl : (added L f).length ≤ 31) :
    ∃ w' id, findOrAppend junk w k f = .ok (w', id) ∧ w'.held = w.held
      ∧ (∀ k', k' ≠ k → w'.tab k' = w.tab k')
      ∧ (∃ t, w'.tab k = some t ∧ Lists t (added L f) ∧ w'.last = (added L f).length + 1)
      ∧ 1 ≤ id ∧ id ≤ 32 ∧ (added L f)[id - 1]? = some f := by
  rcases h with ⟨h1, h2⟩ | ⟨t, h1, h2, h3⟩
  · subst h2
    have e : added [] f = [f] := rfl
    have hL := lists_added (fresh_lists junk) (f := f) (by simp) (by decide)
    refine ⟨w.put k ⟨32, fun i => if i = 1 then some f else none, junk⟩ 2, 1, ?_, rfl, ?_,
      ⟨_, if_pos rfl, hL, rfl⟩, le_rfl, by decide, by rw [e]; rfl⟩
    · rw [findOrAppend, h1]
      simp [append, fresh]
    · intro k' hk
      exact if_neg hk
  · by_cases hf : f ∈ L
    · have e : added L f = L := if_pos hf
      obtain ⟨i, i1, i2, i3, i4⟩ := h2.find hf
      have hs := h2.short
      have hfn : t.fn i = some f := by rw [h2.fn i i1, i3]
      have hsearch : search t f w.last 1 = .ok i :=
        search_found t f w.last 1 i i1 (by omega) (by rw [h2.size]; omega) hfn fun j hj => i4 j hj
      refine ⟨w.put k t w.last, i, ?_, rfl, fun k' hk => if_neg hk, ⟨t, if_pos rfl, ?_, ?_⟩, i1, by omega, ?_⟩
      · rw [findOrAppend, h1]
        simp only [hsearch]
        rw [append, if_neg (by rw [h2.size]; omega), if_pos hfn]
      · rw [e]; exact h2
      · rw [e]; exact h3
      · rw [e]; exact i3
    · have e : added L f = L ++ [f] := if_neg hf
      rw [e, List.length_append] at hl
      have hl : L.length ≤ 30 := by simp at hl; omega
      have hne : ∀ j, 1 ≤ j → t.fn j ≠ some f := by
        intro j hj ej
        rw [h2.fn j hj, List.getElem?_eq_some_iff] at ej
        obtain ⟨hj, ej⟩ := ej
        exact hf (ej ▸ List.getElem_mem hj)
      have hsearch : search t f w.last 1 = .ok (1 + w.last) :=
        search_absent t f w.last 1 (by rw [h2.size, h3]; omega) fun j hj _ => hne j hj
      have hL := lists_added h2 hf hl
      have happ : findOrAppend junk w k f = .ok (w.put k
          ⟨t.size, fun i => if i = L.length + 1 then some f else t.fn i, t.name⟩ (L.length + 1 + 1),
          L.length + 1) := by
        rw [findOrAppend, h1]
        simp only [hsearch]
        rw [append, if_neg (by rw [h2.size, h3]; omega), if_neg (hne _ (by omega))]
        have hg : ¬ t.size < L.length + 1 := by rw [h2.size]; omega
        simp only [h3, if_neg hg]
      refine ⟨_, _, happ, rfl, fun k' hk => if_neg hk, ⟨_, if_pos rfl, ?_, ?_⟩, by omega, by omega, ?_⟩
      · rw [e]; exact hL
      · rw [e]; simp [World.put]
      · rw [e]; simp

/-- The C side holds, for every quantity of the kind, a position of the wanted function. -/
def Holds (w : World) (k : Kind) (L : List Nat) (want : Nat → Slot → Option Nat) : Prop :=
  ∀ o s, s.kind = k → match want o s with
    | none => w.held o s = none
    | some f => ∃ id, w.held o s = some id ∧ 1 ≤ id ∧ id ≤ 32 ∧ L[id - 1]? = some f

theorem evaluated_holds {w : World} {k : Kind} {L : List Nat} {want : Nat → Slot → Option Nat}
    (h : Holds w k L want) (ha : L ≠ [] → ∃ t, w.tab k = some t ∧ Lists t L) (o : Nat) (s : Slot)
    (hs : s.kind = k) : evaluated w o s = .ok (want o s) := by
  have := h o s hs
  cases e : want o s with
  | none =>
    rw [e] at this
    simp only [evaluated, this]
  | some f =>
    rw [e] at this
    obtain ⟨id, h1, h2, h3, h4⟩ := this
    obtain ⟨t, ht, hL⟩ := ha (by intro hn; rw [hn] at h4; simp at h4)
    simp only [evaluated, h1, hs, ht]
    rw [if_neg (by rw [hL.size]; omega), hL.fn id h2, h4]

theorem added_prefix (L : List Nat) (f i : Nat) (x : Nat) (h : L[i]? = some x) : (added L f)[i]? = some x := by
  unfold added
  split
  · exact h
  · rw [List.getElem?_eq_some_iff] at h
    obtain ⟨hi, h⟩ := h
    rw [List.getElem?_append_left hi, List.getElem?_eq_getElem hi, h]

theorem added_subset {L : List Nat} {f : Nat} {S : Finset Nat} (h : ∀ x ∈ L, x ∈ S) (hf : f ∈ S) :
    ∀ x ∈ added L f, x ∈ S := by
  intro x hx
  unfold added at hx
  split at hx
  · exact h x hx
  · rcases List.mem_append.1 hx with h1 | h1
    · exact h x h1
    · rw [List.mem_singleton.1 h1]; exact hf

theorem added_nodup {L : List Nat} {f : Nat} (h : L.Nodup) : (added L f).Nodup := by
  unfold added
  split
  · exact h
  · exact List.nodup_append.2 ⟨h, by simp, by
      intro a ha b hb
      simp only [List.mem_singleton] at hb
      subst hb
      rintro rfl
      contradiction⟩

theorem length_le_card {L : List Nat} {S : Finset Nat} (h : ∀ x ∈ L, x ∈ S) (hn : L.Nodup) :
    L.length ≤ S.card := by
  rw [← List.toFinset_card_of_nodup hn]
  exact Finset.card_le_card fun x hx => h x (List.mem_toFinset.1 hx)

/-- The function last set, given what was wanted before. -/
def wantAfter (want : Nat → Slot → Option Nat) (cs : List Call) : Nat → Slot → Option Nat := fun o s =>
  (lastSet cs o s).or (want o s)

/-- A phase in which only functions of kind `k` are set. -/
theorem phase (junk : Nat → List Char) (k : Kind) (S : Finset Nat) (hS : S.card < 32) :
    ∀ (cs : List Call) (w : World) (L : List Nat) (want : Nat → Slot → Option Nat),
      SetsOnly k S cs → Active w k L → L.Nodup → (∀ x ∈ L, x ∈ S) → Holds w k L want →
      ∃ w' L', run junk w cs = .ok w' ∧ Active w' k L' ∧ Holds w' k L' (wantAfter want cs)
        ∧ (∀ k', k' ≠ k → w'.tab k' = w.tab k') ∧ ∀ o s, s.kind ≠ k → w'.held o s = w.held o s := by
  intro cs
  induction cs with
  | nil =>
    intro w L want _ ha _ _ hh
    refine ⟨w, L, rfl, ha, ?_, fun _ _ => rfl, fun _ _ _ => rfl⟩
    have : wantAfter want [] = want := by
      funext o s
      simp [wantAfter, lastSet]
    rw [this]; exact hh
  | cons c cs ih =>
    intro w L want hc ha hn hL hh
    obtain ⟨o, s, f, rfl, hs, hf⟩ := hc _ List.mem_cons_self
    have hsub := added_subset hL hf
    have hnd := added_nodup (f := f) hn
    have hlen := length_le_card hsub hnd
    obtain ⟨w1, id, e1, e2, e3, ⟨t, e4, e5, e6⟩, i1, i2, i3⟩ :=
      findOrAppend_active junk w k L ha f (by omega)
    let w2 : World := ⟨w1.tab, w1.last, fun o' s' => if o' = o ∧ s' = s then some id else w1.held o' s'⟩
    have hstep : step junk w (.set o s f) = .ok w2 := by
      simp only [step, setFunction, hs, e1]
      rfl
    have ha2 : Active w2 k (added L f) := .inr ⟨t, e4, e5, e6⟩
    have hh2 : Holds w2 k (added L f) (fun o' s' => if o = o' ∧ s = s' then some f else want o' s') := by
      intro o' s' hs'
      by_cases e : o = o' ∧ s = s'
      · obtain ⟨rfl, rfl⟩ := e
        simp only [and_self, if_true]
        exact ⟨id, if_pos ⟨rfl, rfl⟩, i1, i2, i3⟩
      · simp only [if_neg e]
        have hheld : w2.held o' s' = w.held o' s' := by
          show (if o' = o ∧ s' = s then some id else w1.held o' s') = _
          rw [if_neg fun hh => e ⟨hh.1.symm, hh.2.symm⟩, e2]
        have h := hh o' s' hs'
        cases hw : want o' s' with
        | none => rw [hw] at h; exact hheld.trans h
        | some g =>
          rw [hw] at h
          obtain ⟨id', h1, h2, h3, h4⟩ := h
          exact ⟨id', hheld.trans h1, h2, h3, added_prefix _ _ _ _ h4⟩
    obtain ⟨w', L', r1, r2, r3, r4, r5⟩ := ih w2 (added L f) _
      (fun c hc' => hc c (List.mem_cons_of_mem _ hc')) ha2 hnd hsub hh2
    refine ⟨w', L', ?_, r2, ?_, ?_, ?_⟩
    · rw [run, hstep]; exact r1
    · have : wantAfter want (.set o s f :: cs)
          = wantAfter (fun o' s' => if o = o' ∧ s = s' then some f else want o' s') cs := by
        funext o' s'
        simp only [wantAfter, lastSet]
        cases lastSet cs o' s' with
        | some g => rfl
        | none =>
          simp only [Option.none_or]
          split <;> simp
      rw [this]; exact r3
    · intro k' hk'
      rw [r4 k' hk']
      exact e3 k' hk'
    · intro o' s' hs'
      rw [r5 o' s' hs']
      show (if o' = o ∧ s' = s then some id else w1.held o' s') = _
      rw [if_neg, e2]
      rintro ⟨-, rfl⟩
      exact hs' hs

theorem lastSet_append (a b : List Call) (o : Nat) (s : Slot) :
    lastSet (a ++ b) o s = (lastSet b o s).or (lastSet a o s) := by
  induction a with
  | nil => simp [lastSet]
  | cons c a ih =>
    simp only [List.cons_append, lastSet, ih]
    cases lastSet b o s with
    | some f => simp
    | none => simp

theorem lastSet_other {k : Kind} {S : Finset Nat} {cs : List Call} (h : SetsOnly k S cs) (o : Nat) (s : Slot)
    (hs : s.kind ≠ k) : lastSet cs o s = none := by
  induction cs with
  | nil => rfl
  | cons c cs ih =>
    obtain ⟨o', s', f, rfl, hk, -⟩ := h _ List.mem_cons_self
    have hi := ih fun c hc => h c (List.mem_cons_of_mem _ hc)
    have : ¬ (o' = o ∧ s' = s) := by rintro ⟨-, rfl⟩; exact hs hk
    simp only [lastSet, hi, if_neg this]

theorem run_append (junk : Nat → List Char) : ∀ (a b : List Call) (w w' : World),
    run junk w a = .ok w' → run junk w (a ++ b) = run junk w' b := by
  intro a
  induction a with
  | nil => intro b w w' h; cases h; rfl
  | cons c a ih =>
    intro b w w' h
    rw [List.cons_append, run]
    rw [run] at h
    cases e : step junk w c with
    | ok w1 => rw [e] at h; exact ih b w1 w' h
    | err w1 => rw [e] at h; cases h
    | ub => rw [e] at h; cases h

end TDy.Fortran.Proofs
