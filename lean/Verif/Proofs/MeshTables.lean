import Mathlib.Algebra.BigOperators.Intervals
import Mathlib.Tactic.Linarith
import Verif.Spec.MeshTables

/-!
# Lemmas on the connectivity tables
-/

namespace TDy.Mesh.Proofs

open TDy
open Finset

/-- Moving entries towards the front, one by one in increasing order, loses none of them. -/
theorem moveEntries_apply {α : Type} (cnt new old : Nat) (ids : Nat → α) (h : new ≤ old) (i : Nat) :
    moveEntries cnt new old ids i
      = if new ≤ i ∧ i < new + cnt then ids (old + (i - new)) else ids i := by
  unfold moveEntries
  induction cnt generalizing i with
  | zero =>
    rw [if_neg (by omega)]
    rfl
  | succ c ih =>
    simp only [forN, wr]
    by_cases hi : i = new + c
    · subst hi
      rw [if_pos rfl, ih, if_neg (by omega), if_pos (by omega)]
      congr 1
      omega
    · rw [if_neg hi, ih]
      by_cases h1 : new ≤ i ∧ i < new + c
      · rw [if_pos h1, if_pos (by omega)]
      · rw [if_neg h1, if_neg (by omega)]

/-- Where entity `e` starts after the squeeze. -/
def pre (num : Nat → Nat) (e : Nat) : Nat := ∑ i ∈ range e, num i

theorem pre_succ (num : Nat → Nat) (e : Nat) : pre num (e + 1) = pre num e + num e := by
  simp [pre, sum_range_succ]

theorem pre_mono (num : Nat → Nat) {a b : Nat} (h : a ≤ b) : pre num a ≤ pre num b := by
  induction b with
  | zero => rw [Nat.le_zero.1 h]
  | succ b ih =>
    rcases Nat.lt_or_ge a (b + 1) with h' | h'
    · rw [pre_succ]
      have := ih (by omega)
      omega
    · rw [show a = b + 1 by omega]

theorem pre_le (num : Nat → Nat) (size n : Nat) (h : ∀ e < n, num e ≤ size) (m : Nat) (hm : m ≤ n) :
    pre num m ≤ m * size := by
  induction m with
  | zero => simp [pre]
  | succ m ih =>
    rw [pre_succ]
    have h1 := ih (by omega)
    have h2 := h m (by omega)
    have : (m + 1) * size = m * size + size := by ring
    omega

/-- What the loop over elements has done after `j` turns. -/
structure Inv {α : Type} (update : Bool) (size : Nat) (t : Table α) (j : Nat) (s : SqueezeState α) :
    Prop where
  num : s.tab.num = t.num
  newOffset : s.newOffset = pre t.num j
  count : s.count = pre t.num (j + 1)
  offDone : update = true → ∀ e, 1 ≤ e → e ≤ j → s.tab.off e = (pre t.num e : Int)
  offRest : ∀ e, e = 0 ∨ j < e ∨ update = false → s.tab.off e = t.off e
  idsDone : ∀ e ≤ j, ∀ k < t.num e, s.tab.ids (pre t.num e + k) = t.ids (e * size + k)
  idsRest : ∀ i, pre t.num (j + 1) ≤ i → s.tab.ids i = t.ids i

theorem inv {α : Type} (update : Bool) (n size : Nat) (t : Table α) (hn : 0 < n)
    (h : Spec.Loose n size t) :
    Inv update size t (n - 1) (forN (n - 1) (squeezeStep update) ⟨t, 0, t.num 0⟩) := by
  refine forN_invariant (n - 1) (squeezeStep update) _ (Inv update size t) ?_ ?_
  · refine ⟨rfl, rfl, by simp [pre], fun _ e h1 h2 => by omega, fun _ _ => rfl, ?_, fun _ _ => rfl⟩
    intro e he k _
    rw [Nat.le_zero.1 he]
    simp [pre]
  · intro j s hj hI
    have hold : (s.tab.off (j + 1)).toNat = (j + 1) * size := by
      rw [hI.offRest (j + 1) (Or.inr (Or.inl (by omega))), h.layout (j + 1) (by omega)]
      exact Int.toNat_natCast _
    have hnew : s.newOffset + s.tab.num j = pre t.num (j + 1) := by
      rw [hI.newOffset, hI.num, pre_succ]
    have hle : pre t.num (j + 1) ≤ (j + 1) * size := pre_le t.num size n h.room (j + 1) (by omega)
    refine ⟨hI.num, hnew, ?_, ?_, ?_, ?_, ?_⟩
    · simp only [squeezeStep]
      rw [hI.count, hI.num, pre_succ t.num (j + 1)]
    · intro hu e h1 h2
      simp only [squeezeStep, hnew]
      rw [if_pos hu]
      by_cases he : e = j + 1
      · subst he; rw [wr_same]
      · rw [wr_other _ _ he]
        exact hI.offDone hu e h1 (by omega)
    · intro e he
      simp only [squeezeStep, hnew]
      by_cases hu : update = true
      · rw [if_pos hu]
        have hne : e ≠ j + 1 := by
          rcases he with h0 | h0 | h0
          · omega
          · omega
          · rw [hu] at h0; simp at h0
        rw [wr_other _ _ hne]
        refine hI.offRest e ?_
        rcases he with h0 | h0 | h0
        · exact Or.inl h0
        · exact Or.inr (Or.inl (by omega))
        · exact Or.inr (Or.inr h0)
      · rw [if_neg hu]
        exact hI.offRest e (Or.inr (Or.inr (by simpa using hu)))
    · intro e he k hk
      simp only [squeezeStep, hnew, hold]
      rw [moveEntries_apply _ _ _ _ hle]
      by_cases hej : e = j + 1
      · subst hej
        rw [hI.num, if_pos ⟨by omega, by omega⟩, hI.idsRest _ (by omega)]
        congr 1
        omega
      · have h1 : pre t.num e + k < pre t.num (j + 1) := by
          have h2 := pre_mono t.num (show e + 1 ≤ j + 1 by omega)
          rw [pre_succ] at h2
          omega
        rw [if_neg (by omega)]
        exact hI.idsDone e (by omega) k hk
    · intro i hi
      simp only [squeezeStep, hnew, hold]
      rw [moveEntries_apply _ _ _ _ hle, hI.num]
      have h2 := pre_succ t.num (j + 1)
      rw [if_neg (by omega)]
      exact hI.idsRest i (by omega)

/-- The tail fill. -/
theorem fill_apply {α : Type} (cnt start : Nat) (v : α) (ids : Nat → α) (i : Nat) :
    forN cnt (fun k ids => wr ids (start + k) v) ids i
      = if start ≤ i ∧ i < start + cnt then v else ids i := by
  induction cnt with
  | zero => rw [if_neg (by omega)]; rfl
  | succ c ih =>
    simp only [forN, wr]
    by_cases hi : i = start + c
    · rw [if_pos hi, if_pos (by omega)]
    · rw [if_neg hi, ih]
      by_cases h1 : start ≤ i ∧ i < start + c
      · rw [if_pos h1, if_pos (by omega)]
      · rw [if_neg h1, if_neg (by omega)]

theorem squeeze_num {α : Type} (blank : α) (n size : Nat) (u : Bool) (t : Table α) (hn : 0 < n)
    (h : Spec.Loose n size t) : (squeeze blank n size u t).num = t.num :=
  (inv u n size t hn h).num

theorem squeeze_off {α : Type} (blank : α) (n size : Nat) (t : Table α) (hn : 0 < n)
    (h : Spec.Loose n size t) (e : Nat) (he : e ≤ n) :
    (squeeze blank n size true t).off e = (pre t.num e : Int) := by
  have hI := inv true n size t hn h
  simp only [squeeze, if_true]
  by_cases hen : e = n
  · subst hen
    rw [wr_same, hI.newOffset, hI.num, ← pre_succ, Nat.sub_add_cancel hn]
  · rw [wr_other _ _ hen]
    by_cases h0 : e = 0
    · rw [hI.offRest e (Or.inl h0), h.layout e (by omega), h0]
      simp [pre]
    · exact hI.offDone rfl e (by omega) (by omega)

theorem squeeze_off_keep {α : Type} (blank : α) (n size : Nat) (t : Table α) (hn : 0 < n)
    (h : Spec.Loose n size t) (e : Nat) :
    (squeeze blank n size false t).off e = t.off e := by
  have hI := inv false n size t hn h
  simp only [squeeze]
  exact hI.offRest e (Or.inr (Or.inr rfl))

theorem squeeze_ids {α : Type} (blank : α) (n size : Nat) (u : Bool) (t : Table α) (hn : 0 < n)
    (h : Spec.Loose n size t) (e k : Nat) (he : e < n) (hk : k < t.num e) :
    (squeeze blank n size u t).ids (pre t.num e + k) = t.ids (e * size + k) := by
  have hI := inv u n size t hn h
  simp only [squeeze]
  rw [fill_apply, hI.count]
  have h2 := pre_mono t.num (show e + 1 ≤ n - 1 + 1 by omega)
  rw [pre_succ] at h2
  rw [if_neg (by omega)]
  exact hI.idsDone e (by omega) k hk

theorem squeeze_tail {α : Type} (blank : α) (n size : Nat) (u : Bool) (t : Table α) (hn : 0 < n)
    (h : Spec.Loose n size t) (i : Nat) (hi : pre t.num n ≤ i) :
    (squeeze blank n size u t).ids i = if i < size * n then blank else t.ids i := by
  have hI := inv u n size t hn h
  have hc : n - 1 + 1 = n := by omega
  simp only [squeeze]
  rw [fill_apply, hI.count, hc]
  have hp := pre_le t.num size n h.room n (le_refl n)
  rw [mul_comm n size] at hp
  by_cases hlt : i < size * n
  · rw [if_pos (by omega), if_pos hlt]
  · rw [if_neg (by omega), if_neg hlt]
    exact hI.idsRest i (by rw [hc]; exact hi)

/-- Offsets that are the running totals of the counts, and ids placed accordingly, are sound. -/
theorem sound {α : Type} (n size : Nat) (t : Table α) (h : Spec.Loose n size t) (off : Nat → Int)
    (ids : Nat → α) (ho : ∀ e ≤ n, off e = (pre t.num e : Int))
    (hi : ∀ e < n, ∀ k < t.num e, ids (pre t.num e + k) = t.ids (e * size + k)) :
    Spec.Sound n size t off ids := by
  have hcount : ∀ e < n, (access off e).count = t.num e := by
    intro e he
    simp only [access]
    rw [ho e (by omega), ho (e + 1) (by omega), pre_succ]
    push_cast
    ring
  have hstart : ∀ e < n, (access off e).start = (pre t.num e : Int) := fun e he => ho e (by omega)
  refine ⟨?_, hcount, ?_, ?_⟩
  · intro e he
    unfold readSlice Spec.recorded
    rw [hcount e he, hstart e he]
    refine List.map_congr_left ?_
    intro k hk
    simp only [Int.toNat_natCast, List.mem_range] at hk ⊢
    exact hi e he k hk
  · intro e e' hlt he'
    rw [hcount e (by omega), hstart e (by omega), hstart e' he']
    have := pre_mono t.num (show e + 1 ≤ e' by omega)
    rw [pre_succ] at this
    exact_mod_cast this
  · intro e he
    rw [hcount e he, hstart e he]
    refine ⟨by positivity, ?_⟩
    have h1 := pre_mono t.num (show e + 1 ≤ n by omega)
    have h2 := pre_le t.num size n h.room n (le_refl n)
    rw [pre_succ] at h1
    rw [mul_comm n size] at h2
    exact_mod_cast le_trans h1 h2

theorem allocOffsets_apply (n size e : Nat) (he : e ≤ n) :
    allocOffsets n size e = ((e * size : Nat) : Int) := by
  unfold allocOffsets
  rw [forN_fill (n + 1) (fun e => ((e * size : Nat) : Int)), if_pos (by omega)]

theorem allocFaceOffsets_apply (n size e : Nat) :
    allocFaceOffsets n size e = if e < n then ((e * size : Nat) : Int) else -1 := by
  unfold allocFaceOffsets
  rw [forN_fill n (fun e => ((e * size : Nat) : Int))]

end TDy.Mesh.Proofs
