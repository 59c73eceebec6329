import Mathlib.Data.Nat.Count
import Mathlib.Tactic.Ring
import Verif.Spec.UGrid

/-!
# Importing a mesh: loops over slots, removal of duplicates
-/

namespace TDy.UGrid.Proofs

open TDy
open Spec

/-! ## Loops -/

theorem forN_split {σ : Type*} (a b : Nat) (f : Nat → σ → σ) (s : σ) :
    forN (a + b) f s = forN b (fun j => f (a + j)) (forN a f s) := by
  induction b with
  | zero => rfl
  | succ b ih =>
    show f (a + b) (forN (a + b) f s) = _
    rw [ih]; rfl

theorem forN_congr {σ : Type*} (n : Nat) (f g : Nat → σ → σ) (s : σ) (h : ∀ i < n, f i = g i) :
    forN n f s = forN n g s := by
  induction n with
  | zero => rfl
  | succ n ih =>
    show f n (forN n f s) = g n (forN n g s)
    rw [ih (fun i hi => h i (by omega)), h n (by omega)]

theorem forN_id {σ : Type*} (n : Nat) (s : σ) : forN n (fun _ s => s) s = s := by
  induction n with
  | zero => rfl
  | succ n ih => exact ih

/-- Two nested loops as one. -/
theorem forN_nest {σ : Type*} (n m : Nat) (body : Nat → Nat → σ → σ) (s : σ) :
    forN n (fun i s => forN m (body i) s) s = forN (n*m) (fun q s => body (q/m) (q%m) s) s := by
  induction n with
  | zero => rw [Nat.zero_mul]; rfl
  | succ n ih =>
    show forN m (body n) (forN n (fun i s => forN m (body i) s) s) = _
    rw [ih, Nat.succ_mul, forN_split]
    refine forN_congr m _ _ _ ?_
    intro j hj
    have hm : 0 < m := by omega
    have h1 : (n*m + j)/m = n := by
      rw [Nat.mul_comm, Nat.mul_add_div hm, Nat.div_eq_of_lt hj]; rfl
    have h2 : (n*m + j)%m = j := by
      rw [Nat.mul_comm, Nat.mul_add_mod, Nat.mod_eq_of_lt hj]
    rw [h1, h2]

theorem forN_first {σ : Type*} (m : Nat) (f : Nat → σ → σ) (s : σ) :
    forN m (fun d => f (d + 1)) (f 0 s) = forN (m + 1) f s := by
  rw [show m + 1 = 1 + m by omega, forN_split]
  refine forN_congr m _ _ _ ?_
  intro i _
  rw [Nat.add_comm]

/-- Positions `i*S + a` with `a < S` determine `i` and `a`. -/
theorem pos_inj {S i i' a a' : Nat} (ha : a < S) (ha' : a' < S) (h : i*S + a = i'*S + a') :
    i = i' ∧ a = a' := by
  have h1 : (i*S + a)/S = i := by
    rw [Nat.mul_comm, Nat.mul_add_div (by omega), Nat.div_eq_of_lt ha]; rfl
  have h2 : (i'*S + a')/S = i' := by
    rw [Nat.mul_comm, Nat.mul_add_div (by omega), Nat.div_eq_of_lt ha']; rfl
  have : i = i' := by rw [← h1, ← h2, h]
  subst this
  omega

/-- A loop that changes each slot once, depending on the slot's own value. -/
theorem slots_apply {α : Type*} (Q : Nat) (pos : Nat → Nat)
    (hinj : ∀ i < Q, ∀ j < Q, pos i = pos j → i = j) (C : α → Prop) [DecidablePred C] (F : α → α)
    (v : Nat → α) :
    (∀ q < Q, forN Q (fun q v => if C (v (pos q)) then wr v (pos q) (F (v (pos q))) else v) v (pos q)
        = if C (v (pos q)) then F (v (pos q)) else v (pos q))
      ∧ (∀ p, (∀ q < Q, pos q ≠ p) →
        forN Q (fun q v => if C (v (pos q)) then wr v (pos q) (F (v (pos q))) else v) v p = v p) := by
  induction Q with
  | zero => exact ⟨fun q hq => by omega, fun p _ => rfl⟩
  | succ Q ih =>
    obtain ⟨h1, h2⟩ := ih (fun i hi j hj => hinj i (by omega) j (by omega))
    have hQ : forN Q (fun q v => if C (v (pos q)) then wr v (pos q) (F (v (pos q))) else v) v (pos Q)
        = v (pos Q) := h2 _ (fun q hq h => by have := hinj q (by omega) Q (by omega) h; omega)
    simp only [forN]
    constructor
    · intro q hq
      rw [hQ]
      by_cases hqQ : q = Q
      · subst hqQ
        by_cases hc : C (v (pos q))
        · rw [if_pos hc, if_pos hc, wr_same]
        · rw [if_neg hc, if_neg hc, hQ]
      · have hne : pos q ≠ pos Q := fun h => hqQ (hinj q (by omega) Q (by omega) h)
        by_cases hc : C (v (pos Q))
        · rw [if_pos hc, wr_other _ _ hne, h1 q (by omega)]
        · rw [if_neg hc, h1 q (by omega)]
    · intro p hp
      rw [hQ]
      by_cases hc : C (v (pos Q))
      · rw [if_pos hc, wr_other _ _ (fun h => hp Q (by omega) h.symm)]
        exact h2 p (fun q hq => hp q (by omega))
      · rw [if_neg hc]
        exact h2 p (fun q hq => hp q (by omega))

theorem put_count (x : ℤ) (s : Cursor) : (put x s).count = s.count + 1 := rfl

theorem put_v (x : ℤ) (s : Cursor) : (put x s).v = wr s.v s.count x := rfl

/-- A loop that fills an array front to back. -/
theorem puts_apply (m : Nat) (f : Nat → ℤ) (s : Cursor) :
    (forN m (fun k s => put (f k) s) s).count = s.count + m
      ∧ (∀ k < m, (forN m (fun k s => put (f k) s) s).v (s.count + k) = f k)
      ∧ (∀ j < s.count, (forN m (fun k s => put (f k) s) s).v j = s.v j) := by
  induction m with
  | zero => exact ⟨rfl, fun k hk => by omega, fun j _ => rfl⟩
  | succ m ih =>
    obtain ⟨h1, h2, h3⟩ := ih
    simp only [forN, put_count, put_v]
    refine ⟨by rw [h1]; omega, ?_, ?_⟩
    · intro k hk
      rw [h1]
      by_cases hkm : k = m
      · subst hkm; rw [wr_same]
      · rw [wr_other _ _ (by omega)]; exact h2 k (by omega)
    · intro j hj
      rw [h1, wr_other _ _ (by omega)]
      exact h3 j hj

/-- The same with a condition. -/
theorem putsIf_apply (Q : Nat) (P : Nat → Prop) [DecidablePred P] (f : Nat → ℤ) (v0 : Nat → ℤ) :
    (forN Q (fun q s => if P q then put (f q) s else s) ⟨v0, 0⟩).count = Nat.count P Q
      ∧ (∀ q < Q, P q →
        (forN Q (fun q s => if P q then put (f q) s else s) ⟨v0, 0⟩).v (Nat.count P q) = f q) := by
  induction Q with
  | zero => exact ⟨by simp [forN], fun q hq => by omega⟩
  | succ Q ih =>
    obtain ⟨h1, h2⟩ := ih
    simp only [forN]
    by_cases hP : P Q
    · rw [if_pos hP]
      simp only [put_count, put_v]
      refine ⟨by rw [h1, Nat.count_succ, if_pos hP], ?_⟩
      intro q hq hPq
      rw [h1]
      by_cases hqQ : q = Q
      · subst hqQ; rw [wr_same]
      · have : Nat.count P q < Nat.count P Q := Nat.count_strict_mono hPq (by omega)
        rw [wr_other _ _ (by omega)]
        exact h2 q (by omega) hPq
    · rw [if_neg hP]
      refine ⟨by rw [h1, Nat.count_succ, if_neg hP]; rfl, ?_⟩
      intro q hq hPq
      have hqQ : q ≠ Q := fun h => hP (h ▸ hPq)
      exact h2 q (by omega) hPq

/-! ## Slots of the neighbours -/

theorem stride_eq (L : Layout) : L.stride = 2 + L.maxVerts + 1 + L.maxDual + 1 := rfl

theorem dualPos_eq (L : Layout) (i d : Nat) :
    L.dualPos i d = i*L.stride + (2 + L.maxVerts + 1 + d) := by
  unfold Layout.dualPos Layout.dualOffset Layout.vertexOffset; omega

theorem vertPos_eq (L : Layout) (i k : Nat) : L.vertPos i k = i*L.stride + (2 + k) := by
  unfold Layout.vertPos Layout.vertexOffset; omega

/-- The slot visited in iteration `q` of the flattened loop. -/
def dq (L : Layout) (q : Nat) : Nat := L.dualPos (q/L.maxDual) (q%L.maxDual)

theorem dq_inj (L : Layout) (Q : Nat) (hQ : 0 < L.maxDual ∨ Q = 0) :
    ∀ i < Q, ∀ j < Q, dq L i = dq L j → i = j := by
  intro i hi j hj h
  have hm : 0 < L.maxDual := by omega
  unfold dq at h
  rw [dualPos_eq, dualPos_eq] at h
  have hi' := Nat.mod_lt i hm
  have hj' := Nat.mod_lt j hm
  have := pos_inj (by rw [stride_eq]; omega) (by rw [stride_eq]; omega) h
  rw [← Nat.div_add_mod i L.maxDual, ← Nat.div_add_mod j L.maxDual, this.1,
    show i%L.maxDual = j%L.maxDual by omega]

theorem dq_pos (L : Layout) (n : Nat) : 0 < L.maxDual ∨ n*L.maxDual = 0 := by
  rcases Nat.eq_zero_or_pos L.maxDual with h | h
  · right; rw [h, Nat.mul_zero]
  · left; exact h

theorem dq_of (L : Layout) (n i d : Nat) (hi : i < n) (hd : d < L.maxDual) :
    i*L.maxDual + d < n*L.maxDual ∧ dq L (i*L.maxDual + d) = L.dualPos i d := by
  have hm : 0 < L.maxDual := by omega
  constructor
  · calc i*L.maxDual + d < i*L.maxDual + L.maxDual := by omega
      _ = (i + 1)*L.maxDual := by ring
      _ ≤ n*L.maxDual := Nat.mul_le_mul_right _ hi
  · unfold dq
    have h1 : (i*L.maxDual + d)/L.maxDual = i := by
      rw [Nat.mul_comm, Nat.mul_add_div hm, Nat.div_eq_of_lt hd]; rfl
    have h2 : (i*L.maxDual + d)%L.maxDual = d := by
      rw [Nat.mul_comm, Nat.mul_add_mod, Nat.mod_eq_of_lt hd]
    rw [h1, h2]

theorem dq_to (L : Layout) (n q : Nat) (hq : q < n*L.maxDual) :
    q/L.maxDual < n ∧ q%L.maxDual < L.maxDual := by
  have hm : 0 < L.maxDual := by
    rcases Nat.eq_zero_or_pos L.maxDual with h | h
    · rw [h] at hq; omega
    · exact h
  exact ⟨Nat.div_lt_of_lt_mul (by rw [Nat.mul_comm]; exact hq), Nat.mod_lt _ hm⟩

/-! ## Marking ghosts -/

/-- After the marking loop. -/
structure Marked (L : Layout) (off n Q : Nat) (v0 : Nat → ℤ) (s : Ghosts) : Prop where
  none : ∀ q < Q, v0 (dq L q) ≤ 0 → s.v (dq L q) = v0 (dq L q)
  owned : ∀ q < Q, 0 < v0 (dq L q) → ¬ isGhost off n (v0 (dq L q)) →
    s.v (dq L q) = v0 (dq L q) - off
  ghost : ∀ q < Q, 0 < v0 (dq L q) → isGhost off n (v0 (dq L q)) →
    ∃ c < s.num, s.v (dq L q) = -((c : ℤ) + 1) ∧ s.ids c = v0 (dq L q)
  rest : ∀ p, (∀ q < Q, dq L q ≠ p) → s.v p = v0 p
  only : ∀ c < s.num, ∃ q < Q, 0 < v0 (dq L q) ∧ isGhost off n (v0 (dq L q)) ∧ s.ids c = v0 (dq L q)
  size : s.num = forN Q (fun q k => if 0 < v0 (dq L q) then
    (if isGhost off n (v0 (dq L q)) then k + 1 else k) else k) 0

theorem marked_loop (L : Layout) (off n Q : Nat) (v0 : Nat → ℤ) (hQ : 0 < L.maxDual ∨ Q = 0) :
    Marked L off n Q v0
      (forN Q (fun q s => markStep L off n (q/L.maxDual) (q%L.maxDual) s) ⟨v0, fun _ => 0, 0⟩) := by
  induction Q with
  | zero =>
    exact ⟨fun q hq => by omega, fun q hq => by omega, fun q hq => by omega, fun p _ => rfl,
      fun c hc => by simp [forN] at hc, rfl⟩
  | succ Q ih =>
    have ih := ih (by omega)
    have hinj := dq_inj L (Q + 1) hQ
    have hne : ∀ q < Q, dq L q ≠ dq L Q := fun q hq h => by
      have := hinj q (by omega) Q (by omega) h; omega
    simp only [forN]
    set s := forN Q (fun q s => markStep L off n (q/L.maxDual) (q%L.maxDual) s) ⟨v0, fun _ => 0, 0⟩
      with hs
    have hsQ : s.v (dq L Q) = v0 (dq L Q) := ih.rest _ hne
    unfold markStep
    rw [show L.dualPos (Q/L.maxDual) (Q%L.maxDual) = dq L Q from rfl, hsQ]
    have hsz := ih.size
    by_cases h1 : 0 < v0 (dq L Q)
    · by_cases h2 : isGhost off n (v0 (dq L Q))
      · rw [if_pos h1, if_pos h2]
        refine ⟨?_, ?_, ?_, ?_, ?_, ?_⟩
        · intro q hq hle
          have hqQ : q ≠ Q := fun h => by subst h; omega
          simp only []
          rw [wr_other _ _ (hne q (by omega))]
          exact ih.none q (by omega) hle
        · intro q hq hp hg
          have hqQ : q ≠ Q := fun h => by subst h; exact hg h2
          simp only []
          rw [wr_other _ _ (hne q (by omega))]
          exact ih.owned q (by omega) hp hg
        · intro q hq hp hg
          by_cases hqQ : q = Q
          · subst hqQ
            exact ⟨s.num, Nat.lt_succ_self _, wr_same _ _ _, wr_same _ _ _⟩
          · obtain ⟨c, hc, e1, e2⟩ := ih.ghost q (by omega) hp hg
            refine ⟨c, Nat.lt_succ_of_lt hc, ?_, ?_⟩
            · simp only []
              rw [wr_other _ _ (hne q (by omega))]; exact e1
            · simp only []
              rw [wr_other _ _ (by omega)]; exact e2
        · intro p hp
          simp only []
          rw [wr_other _ _ (fun h => hp Q (by omega) h.symm)]
          exact ih.rest p (fun q hq => hp q (by omega))
        · intro c hc
          simp only [] at hc ⊢
          by_cases hcn : c = s.num
          · subst hcn
            exact ⟨Q, by omega, h1, h2, wr_same _ _ _⟩
          · obtain ⟨q, hq, e1, e2, e3⟩ := ih.only c (by omega)
            exact ⟨q, by omega, e1, e2, by rw [wr_other _ _ hcn]; exact e3⟩
        · simp only [forN]
          rw [if_pos h1, if_pos h2, ← hsz]
      · rw [if_pos h1, if_neg h2]
        refine ⟨?_, ?_, ?_, ?_, ?_, ?_⟩
        · intro q hq hle
          have hqQ : q ≠ Q := fun h => by subst h; omega
          simp only []
          rw [wr_other _ _ (hne q (by omega))]
          exact ih.none q (by omega) hle
        · intro q hq hp hg
          by_cases hqQ : q = Q
          · subst hqQ; exact wr_same _ _ _
          · simp only []
            rw [wr_other _ _ (hne q (by omega))]
            exact ih.owned q (by omega) hp hg
        · intro q hq hp hg
          have hqQ : q ≠ Q := fun h => by subst h; exact h2 hg
          obtain ⟨c, hc, e1, e2⟩ := ih.ghost q (by omega) hp hg
          exact ⟨c, hc, by simp only []; rw [wr_other _ _ (hne q (by omega))]; exact e1, e2⟩
        · intro p hp
          simp only []
          rw [wr_other _ _ (fun h => hp Q (by omega) h.symm)]
          exact ih.rest p (fun q hq => hp q (by omega))
        · intro c hc
          obtain ⟨q, hq, e⟩ := ih.only c hc
          exact ⟨q, by omega, e⟩
        · simp only [forN]
          rw [if_pos h1, if_neg h2, ← hsz]
    · rw [if_neg h1]
      refine ⟨?_, ?_, ?_, ?_, ?_, ?_⟩
      · intro q hq hle
        by_cases hqQ : q = Q
        · subst hqQ; exact hsQ
        · exact ih.none q (by omega) hle
      · intro q hq hp hg
        have hqQ : q ≠ Q := fun h => by subst h; omega
        exact ih.owned q (by omega) hp hg
      · intro q hq hp hg
        have hqQ : q ≠ Q := fun h => by subst h; omega
        exact ih.ghost q (by omega) hp hg
      · intro p hp
        exact ih.rest p (fun q hq => hp q (by omega))
      · intro c hc
        obtain ⟨q, hq, e⟩ := ih.only c hc
        exact ⟨q, by omega, e⟩
      · simp only [forN]
        rw [if_neg h1, ← hsz]

theorem markGhosts_marked (L : Layout) (off n : Nat) (v0 : Nat → ℤ) :
    Marked L off n (n*L.maxDual) v0 (markGhosts L off n v0) := by
  have h : markGhosts L off n v0 = forN (n*L.maxDual)
      (fun q s => markStep L off n (q/L.maxDual) (q%L.maxDual) s) ⟨v0, fun _ => 0, 0⟩ := by
    unfold markGhosts
    rw [forN_nest]
  rw [h]
  exact marked_loop L off n _ v0 (dq_pos L n)

theorem markGhosts_size (L : Layout) (off n : Nat) (v0 : Nat → ℤ) :
    (markGhosts L off n v0).num = countGhosts L off n v0 := by
  rw [(markGhosts_marked L off n v0).size]
  unfold countGhosts
  rw [forN_nest n L.maxDual (fun i d k => if 0 < v0 (L.dualPos i d) then
    (if isGhost off n (v0 (L.dualPos i d)) then k + 1 else k) else k)]
  rfl

/-! ## Removing duplicates -/

/-- After `g` steps of the loop over the sorted ids. -/
structure DedupInv (n : Nat) (a1 : Nat → ℤ) (a2 : Nat → Nat) (g : Nat) (s : Dedup) : Prop where
  top : s.a3 s.tmp = a1 (a2 (g - 1))
  small : s.tmp ≤ g - 1
  a4le : ∀ h < g, s.a4 h ≤ s.tmp
  a4 : ∀ h < g, s.a3 (s.a4 h) = a1 (a2 h)
  a5 : ∀ h < g, s.a5 (a2 h) = h
  strict : ∀ i j, i < j → j ≤ s.tmp → s.a3 i < s.a3 j
  from_ : ∀ j ≤ s.tmp, ∃ k < n, s.a3 j = a1 k

theorem dedup_inv (n : Nat) (hn : 0 < n) (a1 : Nat → ℤ) (a2 : Nat → Nat) (hp : IsSortPerm n a1 a2) :
    DedupInv n a1 a2 n (dedup n a1 a2) := by
  unfold dedup
  refine forN_invariant n _ _ (DedupInv n a1 a2) ?_ ?_
  · refine ⟨by simp [wr], Nat.le_refl _, fun h hh => by omega, fun h hh => by omega,
      fun h hh => by omega, fun i j hij hj => ?_, fun j hj => ?_⟩
    · simp only [] at hj; omega
    · simp only [] at hj ⊢
      rw [Nat.le_zero.1 hj, wr_same]
      exact ⟨a2 0, hp.lt 0 hn, rfl⟩
  · intro g s hg hI
    have hle : a1 (a2 (g - 1)) ≤ a1 (a2 g) := hp.sorted _ _ (by omega) hg
    have hsm := hI.small
    unfold dedupStep
    by_cases hlt : s.a3 s.tmp < a1 (a2 g)
    · rw [if_pos hlt]
      have hg0 : 0 < g := by
        rcases Nat.eq_zero_or_pos g with h | h
        · subst h; rw [hI.top] at hlt; simp at hlt
        · exact h
      refine ⟨wr_same _ _ _, by simp only []; omega, ?_, ?_, ?_, ?_, ?_⟩
      · intro h hh
        simp only []
        by_cases e : h = g
        · subst e; rw [wr_same]
        · rw [wr_other _ _ e]; have := hI.a4le h (by omega); omega
      · intro h hh
        simp only []
        by_cases e : h = g
        · subst e; rw [wr_same, wr_same]
        · rw [wr_other _ _ e]
          have := hI.a4le h (by omega)
          rw [wr_other _ _ (by omega)]; exact hI.a4 h (by omega)
      · intro h hh
        simp only []
        by_cases e : h = g
        · subst e; rw [wr_same]
        · rw [wr_other _ _ (fun he => e (hp.inj h (by omega) g hg he))]
          exact hI.a5 h (by omega)
      · intro i j hij hj
        simp only [] at hj ⊢
        by_cases e : j = s.tmp + 1
        · subst e
          rw [wr_same, wr_other _ _ (by omega)]
          rcases Nat.lt_or_ge i s.tmp with h' | h'
          · have := hI.strict i s.tmp h' (le_refl _); omega
          · rw [show i = s.tmp by omega]; exact hlt
        · rw [wr_other _ _ e, wr_other _ _ (by omega)]
          exact hI.strict i j hij (by omega)
      · intro j hj
        simp only [] at hj ⊢
        by_cases e : j = s.tmp + 1
        · subst e; rw [wr_same]; exact ⟨a2 g, hp.lt g hg, rfl⟩
        · rw [wr_other _ _ e]; exact hI.from_ j (by omega)
    · rw [if_neg hlt]
      have heq : s.a3 s.tmp = a1 (a2 g) := by have := hI.top; omega
      refine ⟨heq, by simp only []; omega, ?_, ?_, ?_, hI.strict, hI.from_⟩
      · intro h hh
        simp only []
        by_cases e : h = g
        · subst e; rw [wr_same]
        · rw [wr_other _ _ e]; exact hI.a4le h (by omega)
      · intro h hh
        simp only []
        by_cases e : h = g
        · subst e; rw [wr_same]; exact heq
        · rw [wr_other _ _ e]; exact hI.a4 h (by omega)
      · intro h hh
        simp only []
        by_cases e : h = g
        · subst e; rw [wr_same]
        · rw [wr_other _ _ (fun he => e (hp.inj h (by omega) g hg he))]
          exact hI.a5 h (by omega)

/-- The table of the ghosts: strictly increasing, exactly the listed ids, and every listed id is found
through the two index arrays. -/
theorem dedup_spec (n : Nat) (hn : 0 < n) (a1 : Nat → ℤ) (a2 : Nat → Nat) (hp : IsSortPerm n a1 a2) :
    (dedup n a1 a2).tmp < n
      ∧ (∀ k < n, (dedup n a1 a2).a4 ((dedup n a1 a2).a5 k) ≤ (dedup n a1 a2).tmp
          ∧ (dedup n a1 a2).a3 ((dedup n a1 a2).a4 ((dedup n a1 a2).a5 k)) = a1 k)
      ∧ (∀ i j, i < j → j ≤ (dedup n a1 a2).tmp → (dedup n a1 a2).a3 i < (dedup n a1 a2).a3 j)
      ∧ (∀ j ≤ (dedup n a1 a2).tmp, ∃ k < n, (dedup n a1 a2).a3 j = a1 k) := by
  have hI := dedup_inv n hn a1 a2 hp
  refine ⟨by have := hI.small; omega, ?_, hI.strict, hI.from_⟩
  intro k hk
  obtain ⟨h, hh, rfl⟩ := hp.surj k hk
  rw [hI.a5 h hh]
  exact ⟨hI.a4le h hh, hI.a4 h hh⟩

/-- The same for the vertices. -/
structure VDedupInv (n : Nat) (a1 : Nat → ℤ) (a2 : Nat → Nat) (g : Nat) (s : VDedup) : Prop where
  top : s.a3 s.count = a1 (a2 (g - 1))
  small : s.count ≤ g - 1
  a4le : ∀ h < g, s.a4 (a2 h) ≤ s.count
  a4 : ∀ h < g, s.a3 (s.a4 (a2 h)) = a1 (a2 h)
  strict : ∀ i j, i < j → j ≤ s.count → s.a3 i < s.a3 j
  from_ : ∀ j ≤ s.count, ∃ k < n, s.a3 j = a1 k

theorem vdedup_inv (n : Nat) (hn : 0 < n) (a1 : Nat → ℤ) (a2 : Nat → Nat) (hp : IsSortPerm n a1 a2) :
    VDedupInv n a1 a2 n (vdedup n a1 a2) := by
  unfold vdedup
  refine forN_invariant n _ _ (VDedupInv n a1 a2) ?_ ?_
  · refine ⟨by simp [wr], Nat.le_refl _, fun h hh => by omega, fun h hh => by omega,
      fun i j hij hj => ?_, fun j hj => ?_⟩
    · simp only [] at hj; omega
    · simp only [] at hj ⊢
      rw [Nat.le_zero.1 hj, wr_same]
      exact ⟨a2 0, hp.lt 0 hn, rfl⟩
  · intro g s hg hI
    have hle : a1 (a2 (g - 1)) ≤ a1 (a2 g) := hp.sorted _ _ (by omega) hg
    have hsm := hI.small
    have hne : ∀ h < g + 1, h ≠ g → a2 h ≠ a2 g :=
      fun h hh e he => e (hp.inj h (by omega) g hg he)
    unfold vdedupStep
    by_cases hlt : s.a3 s.count < a1 (a2 g)
    · rw [if_pos hlt]
      have hg0 : 0 < g := by
        rcases Nat.eq_zero_or_pos g with h | h
        · subst h; rw [hI.top] at hlt; simp at hlt
        · exact h
      refine ⟨wr_same _ _ _, by simp only []; omega, ?_, ?_, ?_, ?_⟩
      · intro h hh
        simp only []
        by_cases e : h = g
        · subst e; rw [wr_same]
        · rw [wr_other _ _ (hne h hh e)]; have := hI.a4le h (by omega); omega
      · intro h hh
        simp only []
        by_cases e : h = g
        · subst e; rw [wr_same, wr_same]
        · rw [wr_other _ _ (hne h hh e)]
          have := hI.a4le h (by omega)
          rw [wr_other _ _ (by omega)]; exact hI.a4 h (by omega)
      · intro i j hij hj
        simp only [] at hj ⊢
        by_cases e : j = s.count + 1
        · subst e
          rw [wr_same, wr_other _ _ (by omega)]
          rcases Nat.lt_or_ge i s.count with h' | h'
          · have := hI.strict i s.count h' (le_refl _); omega
          · rw [show i = s.count by omega]; exact hlt
        · rw [wr_other _ _ e, wr_other _ _ (by omega)]
          exact hI.strict i j hij (by omega)
      · intro j hj
        simp only [] at hj ⊢
        by_cases e : j = s.count + 1
        · subst e; rw [wr_same]; exact ⟨a2 g, hp.lt g hg, rfl⟩
        · rw [wr_other _ _ e]; exact hI.from_ j (by omega)
    · rw [if_neg hlt]
      have heq : s.a3 s.count = a1 (a2 g) := by have := hI.top; omega
      refine ⟨heq, by simp only []; omega, ?_, ?_, hI.strict, hI.from_⟩
      · intro h hh
        simp only []
        by_cases e : h = g
        · subst e; rw [wr_same]
        · rw [wr_other _ _ (hne h hh e)]; exact hI.a4le h (by omega)
      · intro h hh
        simp only []
        by_cases e : h = g
        · subst e; rw [wr_same]; exact heq
        · rw [wr_other _ _ (hne h hh e)]; exact hI.a4 h (by omega)

theorem vdedup_spec (n : Nat) (hn : 0 < n) (a1 : Nat → ℤ) (a2 : Nat → Nat) (hp : IsSortPerm n a1 a2) :
    (vdedup n a1 a2).count < n
      ∧ (∀ k < n, (vdedup n a1 a2).a4 k ≤ (vdedup n a1 a2).count
          ∧ (vdedup n a1 a2).a3 ((vdedup n a1 a2).a4 k) = a1 k)
      ∧ (∀ i j, i < j → j ≤ (vdedup n a1 a2).count → (vdedup n a1 a2).a3 i < (vdedup n a1 a2).a3 j)
      ∧ (∀ j ≤ (vdedup n a1 a2).count, ∃ k < n, (vdedup n a1 a2).a3 j = a1 k) := by
  have hI := vdedup_inv n hn a1 a2 hp
  refine ⟨by have := hI.small; omega, ?_, hI.strict, hI.from_⟩
  intro k hk
  obtain ⟨h, hh, rfl⟩ := hp.surj k hk
  exact ⟨hI.a4le h hh, hI.a4 h hh⟩

/-! ## From natural to PETSc numbers -/

/-- Slot `e` of cell `i`: the head of the record, then the neighbours. -/
def gslot (L : Layout) (i e : Nat) : Nat := if e = 0 then i*L.stride else L.dualPos i (e - 1)

/-- Slot visited in iteration `q` of the flattened loop. -/
def gq (L : Layout) (q : Nat) : Nat := gslot L (q/(L.maxDual + 1)) (q%(L.maxDual + 1))

theorem gslot_inj (L : Layout) {i e i' e' : Nat} (he : e < L.maxDual + 1) (he' : e' < L.maxDual + 1)
    (h : gslot L i e = gslot L i' e') : i = i' ∧ e = e' := by
  have hS := stride_eq L
  have key : ∀ i e, e < L.maxDual + 1 →
      ∃ a < L.stride, gslot L i e = i*L.stride + a ∧ (e = 0 → a = 0) ∧
        (0 < e → a = 2 + L.maxVerts + 1 + (e - 1)) := by
    intro i e he
    unfold gslot
    by_cases h0 : e = 0
    · exact ⟨0, by omega, by rw [if_pos h0]; rfl, fun _ => rfl, fun h => by omega⟩
    · exact ⟨2 + L.maxVerts + 1 + (e - 1), by omega, by rw [if_neg h0, dualPos_eq], fun h => by omega,
        fun _ => rfl⟩
  obtain ⟨a, ha, e1, e2, e3⟩ := key i e he
  obtain ⟨a', ha', e1', e2', e3'⟩ := key i' e' he'
  rw [e1, e1'] at h
  have := pos_inj ha ha' h
  refine ⟨this.1, ?_⟩
  rcases Nat.eq_zero_or_pos e with h0 | h0 <;> rcases Nat.eq_zero_or_pos e' with h0' | h0'
  · omega
  · have := e2 h0; have := e3' h0'; omega
  · have := e3 h0; have := e2' h0'; omega
  · have := e3 h0; have := e3' h0'; omega

theorem gq_inj (L : Layout) (i j : Nat) (h : gq L i = gq L j) : i = j := by
  have hm : 0 < L.maxDual + 1 := by omega
  have := gslot_inj L (Nat.mod_lt i hm) (Nat.mod_lt j hm) h
  rw [← Nat.div_add_mod i (L.maxDual + 1), ← Nat.div_add_mod j (L.maxDual + 1), this.1, this.2]

/-- The slot takes part. -/
def Part (L : Layout) (v : Nat → ℤ) (q : Nat) : Prop := q%(L.maxDual + 1) = 0 ∨ 0 < v (gq L q)

instance (L : Layout) (v : Nat → ℤ) : DecidablePred (Part L v) := fun q => by
  unfold Part; infer_instance

/-- The natural number of the slot. -/
def natVal (L : Layout) (v natural : Nat → ℤ) (q : Nat) : ℤ :=
  if q%(L.maxDual + 1) = 0 then natural (q/(L.maxDual + 1)) else v (gq L q) - 1

theorem collectIds_flat (L : Layout) (n : Nat) (v natural : Nat → ℤ) :
    collectIds L n v natural = forN (n*(L.maxDual + 1)) (fun q s =>
      if Part L v q then put (natVal L v natural q) s else s) ⟨fun _ => 0, 0⟩ := by
  have h := forN_nest n (L.maxDual + 1) (fun i e s =>
    if e = 0 ∨ 0 < v (gslot L i e) then put (if e = 0 then natural i else v (gslot L i e) - 1) s else s)
    (⟨fun _ => 0, 0⟩ : Cursor)
  refine Eq.trans ?_ (h.trans ?_)
  · unfold collectIds
    refine forN_congr n _ _ _ ?_
    intro i _
    funext s
    rw [← forN_first]
    simp [gslot]
  · refine forN_congr _ _ _ _ ?_
    intro q _
    funext s
    by_cases hP : Part L v q
    · rw [if_pos hP]; exact if_pos hP
    · rw [if_neg hP]; exact if_neg hP

theorem countIds_flat (L : Layout) (n : Nat) (v : Nat → ℤ) :
    countIds L n v = Nat.count (Part L v) (n*(L.maxDual + 1)) := by
  have h := forN_nest n (L.maxDual + 1) (fun i e (k : Nat) =>
    if e = 0 ∨ 0 < v (gslot L i e) then k + 1 else k) 0
  have h2 : countIds L n v = forN (n*(L.maxDual + 1)) (fun q k => if Part L v q then k + 1 else k) 0 := by
    refine Eq.trans ?_ (h.trans ?_)
    · unfold countIds
      refine forN_congr n _ _ _ ?_
      intro i _
      funext s
      rw [← forN_first]
      simp [gslot]
    · refine forN_congr _ _ _ _ ?_
      intro q _
      funext s
      by_cases hP : Part L v q
      · rw [if_pos hP]; exact if_pos hP
      · rw [if_neg hP]; exact if_neg hP
  rw [h2]
  generalize n*(L.maxDual + 1) = Q
  induction Q with
  | zero => simp [forN]
  | succ Q ih =>
    simp only [forN]
    rw [ih, Nat.count_succ]
    by_cases hP : Part L v Q
    · rw [if_pos hP, if_pos hP]
    · rw [if_neg hP, if_neg hP]; rfl

/-- One step of the write-back. -/
def gstep (L : Layout) (ids : Nat → ℤ) (i e : Nat) (s : GlobalIds) : GlobalIds :=
  if e = 0 then writeCell L ids i s else writeDual L ids i (e - 1) s

theorem toGlobal_flat (L : Layout) (n : Nat) (ao : ℤ → ℤ) (natural v : Nat → ℤ) :
    toGlobal L n ao natural v = forN (n*(L.maxDual + 1)) (fun q s =>
      gstep L (fun k => ao ((collectIds L n v natural).v k)) (q/(L.maxDual + 1)) (q%(L.maxDual + 1)) s)
      ⟨v, fun _ => 0, 0⟩ := by
  rw [← forN_nest]
  unfold toGlobal
  refine forN_congr n _ _ _ ?_
  intro i _
  funext s
  rw [← forN_first]
  rfl

/-- After `Q` steps of the write-back. -/
structure GInv (L : Layout) (ids v : Nat → ℤ) (Q : Nat) (s : GlobalIds) : Prop where
  k : s.k = Nat.count (Part L v) Q
  done : ∀ q < Q, Part L v q → s.v (gq L q) = ids (Nat.count (Part L v) q) + 1
  rest : ∀ p, (∀ q < Q, Part L v q → gq L q ≠ p) → s.v p = v p
  petsc : ∀ i, i*(L.maxDual + 1) < Q →
    s.petsc i = ids (Nat.count (Part L v) (i*(L.maxDual + 1)))

theorem ginv_loop (L : Layout) (ids v : Nat → ℤ) (Q : Nat) :
    GInv L ids v Q (forN Q (fun q s => gstep L ids (q/(L.maxDual + 1)) (q%(L.maxDual + 1)) s)
      ⟨v, fun _ => 0, 0⟩) := by
  induction Q with
  | zero =>
    exact ⟨by simp [forN], fun q hq => by omega, fun p _ => rfl, fun i hi => by omega⟩
  | succ Q ih =>
    simp only [forN]
    set s := forN Q (fun q s => gstep L ids (q/(L.maxDual + 1)) (q%(L.maxDual + 1)) s)
      (⟨v, fun _ => 0, 0⟩ : GlobalIds) with hs
    have hsQ : s.v (gq L Q) = v (gq L Q) :=
      ih.rest _ (fun q hq _ h => by have := gq_inj L q Q h; omega)
    have hne : ∀ q < Q, gq L q ≠ gq L Q := fun q hq h => by have := gq_inj L q Q h; omega
    unfold gstep
    by_cases h0 : Q%(L.maxDual + 1) = 0
    · rw [if_pos h0]
      have hP : Part L v Q := Or.inl h0
      have hpos : gq L Q = Q/(L.maxDual + 1)*L.stride := by unfold gq gslot; rw [if_pos h0]
      unfold writeCell
      rw [← hpos]
      refine ⟨by simp only []; rw [ih.k, Nat.count_succ, if_pos hP], ?_, ?_, ?_⟩
      · intro q hq hPq
        simp only []
        by_cases hqQ : q = Q
        · subst hqQ; rw [wr_same, ih.k]
        · rw [wr_other _ _ (hne q (by omega))]; exact ih.done q (by omega) hPq
      · intro p hp
        simp only []
        rw [wr_other _ _ (fun h => hp Q (by omega) hP h.symm)]
        exact ih.rest p (fun q hq => hp q (by omega))
      · intro i hi
        simp only []
        have hQi : Q = Q/(L.maxDual + 1)*(L.maxDual + 1) := by
          have := Nat.div_add_mod Q (L.maxDual + 1)
          rw [h0] at this
          rw [Nat.mul_comm]; omega
        by_cases hiQ : i*(L.maxDual + 1) = Q
        · have : i = Q/(L.maxDual + 1) := by
            rw [hQi] at hiQ
            exact Nat.eq_of_mul_eq_mul_right (by omega) hiQ
          rw [← this, wr_same, ih.k, hiQ]
        · have : i ≠ Q/(L.maxDual + 1) := fun h => hiQ (by rw [h]; exact hQi.symm)
          rw [wr_other _ _ this]
          exact ih.petsc i (by omega)
    · rw [if_neg h0]
      have hpos : gq L Q = L.dualPos (Q/(L.maxDual + 1)) (Q%(L.maxDual + 1) - 1) := by
        unfold gq gslot; rw [if_neg h0]
      unfold writeDual
      rw [← hpos, hsQ]
      by_cases hv : 0 < v (gq L Q)
      · rw [if_pos hv]
        have hP : Part L v Q := Or.inr hv
        refine ⟨by simp only []; rw [ih.k, Nat.count_succ, if_pos hP], ?_, ?_, ?_⟩
        · intro q hq hPq
          simp only []
          by_cases hqQ : q = Q
          · subst hqQ; rw [wr_same, ih.k]
          · rw [wr_other _ _ (hne q (by omega))]; exact ih.done q (by omega) hPq
        · intro p hp
          simp only []
          rw [wr_other _ _ (fun h => hp Q (by omega) hP h.symm)]
          exact ih.rest p (fun q hq => hp q (by omega))
        · intro i hi
          refine ih.petsc i ?_
          rcases Nat.lt_succ_iff_lt_or_eq.1 hi with h | h
          · exact h
          · exfalso; apply h0; rw [← h]; exact Nat.mul_mod_left i _
      · rw [if_neg hv]
        have hP : ¬ Part L v Q := by rintro (h | h); exact h0 h; exact hv h
        refine ⟨by rw [ih.k, Nat.count_succ, if_neg hP]; rfl, ?_, ?_, ?_⟩
        · intro q hq hPq
          have hqQ : q ≠ Q := fun h => hP (h ▸ hPq)
          exact ih.done q (by omega) hPq
        · intro p hp
          exact ih.rest p (fun q hq => hp q (by omega))
        · intro i hi
          refine ih.petsc i ?_
          rcases Nat.lt_succ_iff_lt_or_eq.1 hi with h | h
          · exact h
          · exfalso; apply h0; rw [← h]; exact Nat.mul_mod_left i _

/-- What the conversion to PETSc numbers does. -/
theorem toGlobal_spec (L : Layout) (n : Nat) (ao : ℤ → ℤ) (natural v : Nat → ℤ) :
    (∀ i < n, (toGlobal L n ao natural v).petsc i = ao (natural i)
        ∧ (toGlobal L n ao natural v).v (i*L.stride) = ao (natural i) + 1)
      ∧ (∀ i < n, ∀ d < L.maxDual, (toGlobal L n ao natural v).v (L.dualPos i d)
          = if 0 < v (L.dualPos i d) then ao (v (L.dualPos i d) - 1) + 1 else v (L.dualPos i d))
      ∧ (∀ p, (∀ i < n, p ≠ i*L.stride ∧ ∀ d < L.maxDual, p ≠ L.dualPos i d) →
          (toGlobal L n ao natural v).v p = v p) := by
  set ids : Nat → ℤ := fun k => ao ((collectIds L n v natural).v k) with hids
  have hG : GInv L ids v (n*(L.maxDual + 1)) (toGlobal L n ao natural v) := by
    rw [toGlobal_flat]; exact ginv_loop L ids v _
  have hval : ∀ q < n*(L.maxDual + 1), Part L v q →
      ids (Nat.count (Part L v) q) = ao (natVal L v natural q) := by
    intro q hq hP
    rw [hids]
    show ao _ = _
    rw [collectIds_flat, (putsIf_apply _ (Part L v) (natVal L v natural) _).2 q hq hP]
  have hdm : ∀ i e, e < L.maxDual + 1 → (i*(L.maxDual + 1) + e)/(L.maxDual + 1) = i
      ∧ (i*(L.maxDual + 1) + e)%(L.maxDual + 1) = e := by
    intro i e he
    constructor
    · rw [Nat.mul_comm, Nat.mul_add_div (by omega), Nat.div_eq_of_lt he]; rfl
    · rw [Nat.mul_comm, Nat.mul_add_mod, Nat.mod_eq_of_lt he]
  have hlt : ∀ i < n, ∀ e < L.maxDual + 1, i*(L.maxDual + 1) + e < n*(L.maxDual + 1) := by
    intro i hi e he
    calc i*(L.maxDual + 1) + e < i*(L.maxDual + 1) + (L.maxDual + 1) := by omega
      _ = (i + 1)*(L.maxDual + 1) := by ring
      _ ≤ n*(L.maxDual + 1) := Nat.mul_le_mul_right _ hi
  have hgq : ∀ i e, e < L.maxDual + 1 → gq L (i*(L.maxDual + 1) + e) = gslot L i e := by
    intro i e he; unfold gq; rw [(hdm i e he).1, (hdm i e he).2]
  refine ⟨?_, ?_, ?_⟩
  · intro i hi
    have h0 := hlt i hi 0 (by omega)
    rw [Nat.add_zero] at h0
    have hm := hdm i 0 (by omega)
    rw [Nat.add_zero] at hm
    have hP : Part L v (i*(L.maxDual + 1)) := Or.inl hm.2
    have hn : natVal L v natural (i*(L.maxDual + 1)) = natural i := by
      unfold natVal; rw [if_pos hm.2, hm.1]
    refine ⟨by rw [hG.petsc i h0, hval _ h0 hP, hn], ?_⟩
    have h1 := hG.done _ h0 hP
    have h2 := hgq i 0 (by omega)
    rw [Nat.add_zero] at h2
    rw [h2, hval _ h0 hP, hn] at h1
    exact h1
  · intro i hi d hd
    have h0 := hlt i hi (d + 1) (by omega)
    have hm := hdm i (d + 1) (by omega)
    have hpos : gq L (i*(L.maxDual + 1) + (d + 1)) = L.dualPos i d := by
      rw [hgq i (d + 1) (by omega)]; unfold gslot; rw [if_neg (by omega)]; rfl
    by_cases hv : 0 < v (L.dualPos i d)
    · have hP : Part L v (i*(L.maxDual + 1) + (d + 1)) := Or.inr (by rw [hpos]; exact hv)
      have h1 := hG.done _ h0 hP
      have hn : natVal L v natural (i*(L.maxDual + 1) + (d + 1)) = v (L.dualPos i d) - 1 := by
        unfold natVal; rw [if_neg (by omega), hpos]
      rw [hval _ h0 hP, hn, hpos] at h1
      rw [if_pos hv, h1]
    · rw [if_neg hv]
      refine hG.rest _ ?_
      intro q hq hP h
      rw [← hpos] at h
      have := gq_inj L _ _ h
      subst this
      rcases hP with hP | hP
      · omega
      · rw [hpos] at hP; exact hv hP
  · intro p hp
    refine hG.rest p ?_
    intro q hq _ h
    have hq1 : q/(L.maxDual + 1) < n := Nat.div_lt_of_lt_mul (by rw [Nat.mul_comm]; exact hq)
    have hq2 := Nat.mod_lt q (show 0 < L.maxDual + 1 by omega)
    unfold gq gslot at h
    have := hp _ hq1
    by_cases h0 : q%(L.maxDual + 1) = 0
    · rw [if_pos h0] at h; exact this.1 h.symm
    · rw [if_neg h0] at h; exact this.2 _ (by omega) h.symm

theorem collectIds_size (L : Layout) (n : Nat) (v natural : Nat → ℤ) :
    (collectIds L n v natural).count = countIds L n v := by
  rw [collectIds_flat, countIds_flat]
  exact (putsIf_apply _ (Part L v) (natVal L v natural) _).1

/-! ## From PETSc to local numbers -/

/-- What the conversion to local numbers does. -/
structure Localised (L : Layout) (off n : Nat) (v : Nat → ℤ) (r : LocalIds) : Prop where
  owned : ∀ i < n, ∀ d < L.maxDual, 0 < v (L.dualPos i d) → ¬ isGhost off n (v (L.dualPos i d)) →
    r.v (L.dualPos i d) = v (L.dualPos i d) - off
  ghost : ∀ i < n, ∀ d < L.maxDual, 0 < v (L.dualPos i d) → isGhost off n (v (L.dualPos i d)) →
    ∃ g < r.numGhost, r.v (L.dualPos i d) = (n : ℤ) + g + 1 ∧ r.ghostIds g = v (L.dualPos i d) - 1
  none : ∀ i < n, ∀ d < L.maxDual, v (L.dualPos i d) = 0 → r.v (L.dualPos i d) = 0
  rest : ∀ p, (∀ i < n, ∀ d < L.maxDual, p ≠ L.dualPos i d) → r.v p = v p
  strict : ∀ g h, g < h → h < r.numGhost → r.ghostIds g < r.ghostIds h
  real : ∀ g < r.numGhost, ∃ i < n, ∃ d < L.maxDual, 0 < v (L.dualPos i d)
    ∧ isGhost off n (v (L.dualPos i d)) ∧ r.ghostIds g = v (L.dualPos i d) - 1

theorem toLocal_localised (L : Layout) (off n : Nat) (sort : Nat → (Nat → ℤ) → Nat → Nat)
    (hsort : Sorts sort) (v : Nat → ℤ) : Localised L off n v (toLocal L off n sort v) := by
  have hM := markGhosts_marked L off n v
  set m := markGhosts L off n v with hm
  have hinj := dq_inj L (n*L.maxDual) (dq_pos L n)
  have hrest : ∀ p, (∀ i < n, ∀ d < L.maxDual, p ≠ L.dualPos i d) → ∀ q < n*L.maxDual, dq L q ≠ p := by
    intro p hp q hq h
    have := dq_to L n q hq
    exact hp _ this.1 _ this.2 h.symm
  unfold toLocal
  rw [← hm]
  by_cases h0 : 0 < m.num
  · simp only []
    rw [if_pos h0]
    have ht := dedup_spec m.num h0 (fun k => m.ids k - 1) (sort m.num (fun k => m.ids k - 1))
      (hsort _ _)
    change (ghostTable sort m).tmp < m.num ∧ (∀ k < m.num, (ghostTable sort m).a4 ((ghostTable sort m).a5 k)
      ≤ (ghostTable sort m).tmp ∧ (ghostTable sort m).a3 ((ghostTable sort m).a4 ((ghostTable sort m).a5 k))
        = m.ids k - 1) ∧ (∀ i j, i < j → j ≤ (ghostTable sort m).tmp → (ghostTable sort m).a3 i
          < (ghostTable sort m).a3 j) ∧ (∀ j ≤ (ghostTable sort m).tmp, ∃ k < m.num,
            (ghostTable sort m).a3 j = m.ids k - 1) at ht
    set t := ghostTable sort m with htt
    obtain ⟨t1, t2, t3, t4⟩ := ht
    have hv' : ∀ w, forN n (fun i v => forN L.maxDual (resolveStep L n t i) v) w
        = forN (n*L.maxDual) (fun q v => if v (dq L q) < 0 then wr v (dq L q)
            (((fun x : ℤ => (t.a4 (t.a5 (-x - 1).toNat) : ℤ) + n + 1)) (v (dq L q))) else v) w := by
      intro w; rw [forN_nest]; rfl
    have hS := slots_apply (n*L.maxDual) (dq L) hinj (fun x : ℤ => x < 0)
      (fun x : ℤ => (t.a4 (t.a5 (-x - 1).toNat) : ℤ) + n + 1) m.v
    refine ⟨?_, ?_, ?_, ?_, ?_, ?_⟩
    · intro i hi d hd hp hg
      obtain ⟨hq, e⟩ := dq_of L n i d hi hd
      simp only []
      rw [hv', ← e, hS.1 _ hq]
      rw [← e] at hp hg
      have ho := hM.owned _ hq hp hg
      have : ¬ m.v (dq L (i*L.maxDual + d)) < 0 := by
        rw [ho]; unfold isGhost at hg; omega
      rw [if_neg this, ho]
    · intro i hi d hd hp hg
      obtain ⟨hq, e⟩ := dq_of L n i d hi hd
      simp only []
      rw [hv', ← e, hS.1 _ hq]
      rw [← e] at hp hg
      obtain ⟨c, hc, e1, e2⟩ := hM.ghost _ hq hp hg
      have : m.v (dq L (i*L.maxDual + d)) < 0 := by rw [e1]; omega
      rw [if_pos this]
      have hcast : (-(m.v (dq L (i*L.maxDual + d))) - 1).toNat = c := by rw [e1]; omega
      simp only [hcast]
      obtain ⟨u1, u2⟩ := t2 c hc
      refine ⟨t.a4 (t.a5 c), by omega, by ring, ?_⟩
      rw [forN_fill (t.tmp + 1) (fun g => t.a3 g), if_pos (by omega), u2, e2]
    · intro i hi d hd hz
      obtain ⟨hq, e⟩ := dq_of L n i d hi hd
      simp only []
      rw [hv', ← e, hS.1 _ hq]
      rw [← e] at hz
      have ho := hM.none _ hq (by omega)
      rw [ho, hz]
      simp
    · intro p hp
      simp only []
      rw [hv', hS.2 p (hrest p hp)]
      exact hM.rest p (hrest p hp)
    · intro g h hgh hh
      simp only [] at hh ⊢
      rw [forN_fill (t.tmp + 1) (fun g => t.a3 g), forN_fill (t.tmp + 1) (fun g => t.a3 g),
        if_pos (by omega), if_pos hh]
      exact t3 g h hgh (by omega)
    · intro g hg
      simp only [] at hg ⊢
      rw [forN_fill (t.tmp + 1) (fun g => t.a3 g), if_pos hg]
      obtain ⟨k, hk, e⟩ := t4 g (by omega)
      obtain ⟨q, hq, e1, e2, e3⟩ := hM.only k hk
      have := dq_to L n q hq
      refine ⟨_, this.1, _, this.2, e1, e2, ?_⟩
      rw [e, e3]; rfl
  · simp only []
    rw [if_neg h0]
    have hnum : m.num = 0 := by omega
    refine ⟨?_, ?_, ?_, ?_, ?_, ?_⟩
    · intro i hi d hd hp hg
      obtain ⟨hq, e⟩ := dq_of L n i d hi hd
      rw [← e] at hp hg ⊢
      exact hM.owned _ hq hp hg
    · intro i hi d hd hp hg
      obtain ⟨hq, e⟩ := dq_of L n i d hi hd
      rw [← e] at hp hg
      obtain ⟨c, hc, _⟩ := hM.ghost _ hq hp hg
      omega
    · intro i hi d hd hz
      obtain ⟨hq, e⟩ := dq_of L n i d hi hd
      rw [← e] at hz ⊢
      simp only []
      rw [hM.none _ hq (by omega), hz]
    · intro p hp
      exact hM.rest p (hrest p hp)
    · intro g h hgh hh; simp only [] at hh; omega
    · intro g hg; simp only [] at hg; omega

end TDy.UGrid.Proofs
