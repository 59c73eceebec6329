import Verif.Model.MpfaoLocal
import Verif.Proofs.MpfaoTrans
import Mathlib.Tactic.Ring

/-! # MPFA-O: the buffers of the local problem hold the local problem -/

namespace TDy.Mpfao.Buf.Proofs

open TDy TDy.Mpfao TDy.Mpfao.Buf TDy.Mpfao.Spec TDy.Mpfao.Proofs

theorem wr2_same (M : Nat → Nat → ℝ) (i j : Nat) (x : ℝ) : wr2 M i j x i j = x := by simp [wr2]

theorem wr2_other (M : Nat → Nat → ℝ) (i j a b : Nat) (x : ℝ) (h : ¬ (a = i ∧ b = j)) :
    wr2 M i j x a b = M a b := by simp only [wr2, if_neg h]

/-! ## Blocks -/

theorem extract_eq (M : Nat → Nat → ℝ) (rS rE cS cE i j : Nat) (hi : rS + i < rE) (hj : cS + j < cE) :
    extract M rS rE cS cE i j = M (rS + i) (cS + j) := by
  have inner : ∀ (s : Nat → Nat → ℝ) (r : Nat),
      let t := forN (cE - cS) (fun j s => wr2 s (rS + r - rS) (cS + j - cS) (M (rS + r) (cS + j))) s
      (∀ b < cE - cS, t r b = M (rS + r) (cS + b)) ∧ ∀ a b, a ≠ r → t a b = s a b := by
    intro s r
    have := forN_invariant (cE - cS)
      (fun j s => wr2 s (rS + r - rS) (cS + j - cS) (M (rS + r) (cS + j))) s
      (fun k t => (∀ b < k, t r b = M (rS + r) (cS + b)) ∧ ∀ a b, a ≠ r → t a b = s a b)
      ⟨fun b hb => by omega, fun _ _ _ => rfl⟩
      (by
        rintro k t hk ⟨h1, h2⟩
        refine ⟨?_, ?_⟩
        · intro b hb
          by_cases hbk : b = k
          · subst hbk
            rw [Nat.add_sub_cancel_left, Nat.add_sub_cancel_left, wr2_same]
          · rw [Nat.add_sub_cancel_left, Nat.add_sub_cancel_left, wr2_other _ _ _ _ _ _ (by tauto)]
            exact h1 b (by omega)
        · intro a b hab
          rw [Nat.add_sub_cancel_left, wr2_other _ _ _ _ _ _ (by tauto)]
          exact h2 a b hab)
    exact this
  have := forN_invariant (rE - rS)
    (fun i s => forN (cE - cS) (fun j s => wr2 s (rS + i - rS) (cS + j - cS) (M (rS + i) (cS + j))) s)
    (fun _ _ => (0 : ℝ))
    (fun k t => ∀ a < k, ∀ b < cE - cS, t a b = M (rS + a) (cS + b))
    (fun a ha => by omega)
    (by
      intro k t hk h a ha b hb
      obtain ⟨h1, h2⟩ := inner t k
      by_cases hak : a = k
      · subst hak; exact h1 b hb
      · exact (h2 a b hak).trans (h a (by omega) b hb))
  exact this i (by omega) j (by omega)

/-! ## Packing -/

section pack

variable {α : Type}

theorem pushes (n : Nat) (g : Nat → α) (k0 : Nat) (b : Nat → α) :
    (forN n (fun i st => push (g i) st) (k0, b)).1 = k0 + n ∧
    (∀ i < n, (forN n (fun i st => push (g i) st) (k0, b)).2 (k0 + i) = g i) ∧
    ∀ k < k0, (forN n (fun i st => push (g i) st) (k0, b)).2 k = b k := by
  refine forN_invariant n (fun i st => push (g i) st) (k0, b)
    (fun m st => st.1 = k0 + m ∧ (∀ i < m, st.2 (k0 + i) = g i) ∧ ∀ k < k0, st.2 k = b k)
    ⟨rfl, fun i hi => by omega, fun _ _ => rfl⟩ ?_
  rintro m ⟨x, t⟩ hm ⟨h0, h1, h2⟩
  simp only at h0 h1 h2
  subst h0
  refine ⟨by simp only [push]; omega, ?_, ?_⟩
  · intro i hi
    simp only [push]
    by_cases him : i = m
    · subst him; rw [wr_same]
    · rw [wr_other _ _ (by omega)]; exact h1 i (by omega)
  · intro k hk
    simp only [push]
    rw [wr_other _ _ (by omega)]; exact h2 k hk

/-- The entry of row `r` of a column of three pieces. -/
def piece (h1 h2 : Nat) (g1 g2 g3 : Nat → Nat → α) (r j : Nat) : α :=
  if r < h1 then g1 r j else if r < h1 + h2 then g2 (r - h1) j else g3 (r - h1 - h2) j

theorem column (h1 h2 h3 : Nat) (g1 g2 g3 : Nat → Nat → α) (j k0 : Nat) (b : Nat → α) :
    let t := forN h3 (fun i st => push (g3 i j) st) (forN h2 (fun i st => push (g2 i j) st)
      (forN h1 (fun i st => push (g1 i j) st) (k0, b)))
    t.1 = k0 + (h1 + h2 + h3) ∧
    (∀ r < h1 + h2 + h3, t.2 (k0 + r) = piece h1 h2 g1 g2 g3 r j) ∧ ∀ k < k0, t.2 k = b k := by
  intro t
  obtain ⟨a0, a1, a2⟩ := pushes h1 (fun i => g1 i j) k0 b
  have ht0 : t = forN h3 (fun i st => push (g3 i j) st) (forN h2 (fun i st => push (g2 i j) st)
      (forN h1 (fun i st => push (g1 i j) st) (k0, b))) := rfl
  clear_value t
  generalize hA : forN h1 (fun i st => push (g1 i j) st) (k0, b) = A at *
  obtain ⟨xa, ta⟩ := A
  simp only at a0 a1 a2
  subst a0
  obtain ⟨b0, b1, b2⟩ := pushes h2 (fun i => g2 i j) (k0 + h1) ta
  have ht : t = forN h3 (fun i st => push (g3 i j) st) (forN h2 (fun i st => push (g2 i j) st)
      (k0 + h1, ta)) := ht0
  generalize hB : forN h2 (fun i st => push (g2 i j) st) (k0 + h1, ta) = B at *
  obtain ⟨xb, tb⟩ := B
  simp only at b0 b1 b2
  subst b0
  obtain ⟨c0, c1, c2⟩ := pushes h3 (fun i => g3 i j) (k0 + h1 + h2) tb
  rw [← ht] at c0 c1 c2
  refine ⟨by rw [c0]; omega, ?_, ?_⟩
  · intro r hr
    unfold piece
    split
    · rename_i h
      rw [c2 _ (by omega), b2 _ (by omega)]; exact a1 r h
    · split
      · rename_i h h'
        rw [c2 _ (by omega), ← b1 (r - h1) (by omega), show k0 + h1 + (r - h1) = k0 + r by omega]
      · rename_i h h'
        rw [← c1 (r - h1 - h2) (by omega), show k0 + h1 + h2 + (r - h1 - h2) = k0 + r by omega]
  · intro k hk
    rw [c2 _ (by omega), b2 _ (by omega)]; exact a2 k hk

theorem packCols_eq (m h1 h2 h3 : Nat) (g1 g2 g3 : Nat → Nat → α) (k0 : Nat) (b : Nat → α) :
    (packCols m h1 h2 h3 g1 g2 g3 (k0, b)).1 = k0 + m*(h1 + h2 + h3) ∧
    (∀ j < m, ∀ r < h1 + h2 + h3,
      (packCols m h1 h2 h3 g1 g2 g3 (k0, b)).2 (k0 + j*(h1 + h2 + h3) + r) = piece h1 h2 g1 g2 g3 r j) ∧
    ∀ k < k0, (packCols m h1 h2 h3 g1 g2 g3 (k0, b)).2 k = b k := by
  unfold packCols
  refine forN_invariant m _ (k0, b)
    (fun n st => st.1 = k0 + n*(h1 + h2 + h3) ∧
      (∀ j < n, ∀ r < h1 + h2 + h3, st.2 (k0 + j*(h1 + h2 + h3) + r) = piece h1 h2 g1 g2 g3 r j) ∧
      ∀ k < k0, st.2 k = b k)
    ⟨by simp, fun j hj => by omega, fun _ _ => rfl⟩ ?_
  rintro n ⟨x, t⟩ hn ⟨e0, e1, e2⟩
  simp only at e0 e1 e2
  subst e0
  obtain ⟨c0, c1, c2⟩ := column h1 h2 h3 g1 g2 g3 n (k0 + n*(h1 + h2 + h3)) t
  have hs : (n + 1)*(h1 + h2 + h3) = n*(h1 + h2 + h3) + (h1 + h2 + h3) := by ring
  refine ⟨by rw [c0, hs]; omega, ?_, ?_⟩
  · intro j hj r hr
    by_cases hjn : j = n
    · subst hjn; exact c1 r hr
    · have : (j + 1)*(h1 + h2 + h3) ≤ n*(h1 + h2 + h3) := Nat.mul_le_mul_right _ (by omega)
      have hs' : (j + 1)*(h1 + h2 + h3) = j*(h1 + h2 + h3) + (h1 + h2 + h3) := by ring
      rw [c2 _ (by omega)]
      exact e1 j (by omega) r hr
  · intro k hk
    rw [c2 _ (by omega)]; exact e2 k hk

end pack

theorem neu_sum {v : Vtx} (wf : WellFormed v) : nNeuUp v + nNeuDn v = nNeu v := by
  have := nBnd_split wf
  unfold nNeuUp nNeuDn nNeu
  split <;> omega

/-- The buffer of the right-hand sides. -/
theorem packB_eq {v : Vtx} (wf : WellFormed v) (j r : Nat) (hj : j < v.npcen + nDir v) (hr : r < nSys v) :
    (packB v).2 (j*nSys v + r) = bEntry v r j := by
  have hn : nIn v + nNeuUp v + nNeuDn v = nSys v := by have := neu_sum wf; unfold nSys; omega
  unfold packB
  obtain ⟨a0, a1, -⟩ := packCols_eq v.npcen (nIn v) (nNeuUp v) (nNeuDn v)
      (fun i j => -(fUp v).b1 i j + (fDn v).b1 i j) (fun i j => -(fUp v).b3 i j)
      (fun i j => -(fDn v).b3 i j) 0 (fun _ => 0)
  generalize packCols v.npcen (nIn v) (nNeuUp v) (nNeuDn v)
      (fun i j => -(fUp v).b1 i j + (fDn v).b1 i j) (fun i j => -(fUp v).b3 i j)
      (fun i j => -(fDn v).b3 i j) (0, fun _ => 0) = A at *
  obtain ⟨x, t⟩ := A
  simp only at a0 a1
  subst a0
  obtain ⟨-, b1, b2⟩ := packCols_eq (nDir v) (nIn v) (nNeuUp v) (nNeuDn v)
    (fun i j => (cUp v).b12 i j - (cDn v).b12 i j) (fun i j => -(cUp v).b32 i j)
    (fun i j => -(cDn v).b32 i j) (0 + v.npcen*(nIn v + nNeuUp v + nNeuDn v)) t
  rw [hn] at a1 b1 b2 ⊢
  unfold bEntry
  by_cases hc : j < v.npcen
  · have hle : (j + 1)*nSys v ≤ v.npcen*nSys v := Nat.mul_le_mul_right _ (by omega)
    have hs : (j + 1)*nSys v = j*nSys v + nSys v := by ring
    have h1 := a1 j hc r hr
    rw [Nat.zero_add] at h1
    rw [b2 _ (by omega), h1, if_pos hc]
    unfold piece fUp fDn subF
    dsimp only
    split
    · rw [extract_eq _ _ _ _ _ _ _ (by omega) (by omega), extract_eq _ _ _ _ _ _ _ (by omega) (by omega)]
      simp only [Nat.zero_add]
    · split
      · rw [extract_eq _ _ _ _ _ _ _ (by omega) (by omega)]
        simp only [Nat.zero_add]
      · rw [extract_eq _ _ _ _ _ _ _ (by omega) (by omega)]
        simp only [Nat.zero_add]
  · have h1 := b1 (j - v.npcen) (by omega) r hr
    have e : 0 + v.npcen*nSys v + (j - v.npcen)*nSys v + r = j*nSys v + r := by
      rw [Nat.zero_add, ← Nat.add_mul, Nat.add_sub_cancel' (by omega)]
    rw [e] at h1
    rw [h1, if_neg hc]
    unfold piece cUp cDn subC
    dsimp only
    split
    · rw [extract_eq _ _ _ _ _ _ _ (by omega) (by omega), extract_eq _ _ _ _ _ _ _ (by omega) (by omega)]
      simp only [Nat.zero_add]
    · split
      · rw [extract_eq _ _ _ _ _ _ _ (by omega) (by omega)]
      · rw [extract_eq _ _ _ _ _ _ _ (by omega) (by omega)]

/-- The buffers of the matrix and of the fluxes of the up side. -/
theorem packA_eq {v : Vtx} (wf : WellFormed v) (c r : Nat) (hc : c < nSys v) (hr : r < nSys v) :
    ((packA v).2 (c*nSys v + r)).1 = aEntry v r c ∧
    (r < nIn v → ((packA v).2 (c*nSys v + r)).2 = (candF v).Cup r (colA v c)) := by
  have hn : nIn v + nNeuUp v + nNeuDn v = nSys v := by have := neu_sum wf; unfold nSys; omega
  have hN : nSys v = nIn v + nNeu v := rfl
  unfold packA
  obtain ⟨a0, a1, -⟩ := packCols_eq (nIn v) (nIn v) (nNeuUp v) (nNeuDn v)
      (fun i j => (-(cUp v).b11 i j + (cDn v).b11 i j, (cUp v).b11 i j))
      (fun i j => (-(cUp v).b31 i j, (cUp v).b31 i j)) (fun i j => (-(cDn v).b31 i j, (cDn v).b31 i j))
      0 (fun _ => ((0 : ℝ), (0 : ℝ)))
  generalize packCols (nIn v) (nIn v) (nNeuUp v) (nNeuDn v)
      (fun i j => (-(cUp v).b11 i j + (cDn v).b11 i j, (cUp v).b11 i j))
      (fun i j => (-(cUp v).b31 i j, (cUp v).b31 i j)) (fun i j => (-(cDn v).b31 i j, (cDn v).b31 i j))
      (0, fun _ => ((0 : ℝ), (0 : ℝ))) = A at *
  obtain ⟨x, t⟩ := A
  simp only at a0 a1
  subst a0
  obtain ⟨-, b1, b2⟩ := packCols_eq (nNeu v) (nIn v) (nNeuUp v) (nNeuDn v)
    (fun i j => (-(cUp v).b13 i j + (cDn v).b13 i j, (cUp v).b13 i j))
    (fun i j => (-(cUp v).b33 i j, (cUp v).b33 i j)) (fun i j => (-(cDn v).b33 i j, (cDn v).b33 i j))
    (0 + nIn v*(nIn v + nNeuUp v + nNeuDn v)) t
  rw [hn] at a1 b1 b2 ⊢
  unfold aEntry colA
  by_cases hcn : c < nIn v
  · have hle : (c + 1)*nSys v ≤ nIn v*nSys v := Nat.mul_le_mul_right _ (by omega)
    have hs : (c + 1)*nSys v = c*nSys v + nSys v := by ring
    have h1 := a1 c hcn r hr
    rw [Nat.zero_add] at h1
    rw [b2 _ (by omega), h1, if_pos hcn]
    unfold piece cUp cDn subC
    dsimp only
    split
    · rw [extract_eq _ _ _ _ _ _ _ (by omega) (by omega), extract_eq _ _ _ _ _ _ _ (by omega) (by omega)]
      simp only [Nat.zero_add]
      exact ⟨trivial, fun _ => trivial⟩
    · refine ⟨?_, fun h => absurd h (by omega)⟩
      split
      · rw [extract_eq _ _ _ _ _ _ _ (by omega) (by omega)]
        simp only [Nat.zero_add]
      · rw [extract_eq _ _ _ _ _ _ _ (by omega) (by omega)]
        simp only [Nat.zero_add]
  · have h1 := b1 (c - nIn v) (by omega) r hr
    have e : 0 + nIn v*nSys v + (c - nIn v)*nSys v + r = c*nSys v + r := by
      rw [Nat.zero_add, ← Nat.add_mul, Nat.add_sub_cancel' (by omega)]
    rw [e] at h1
    rw [h1, if_neg hcn]
    unfold piece cUp cDn subC
    dsimp only
    split
    · rw [extract_eq _ _ _ _ _ _ _ (by omega) (by omega), extract_eq _ _ _ _ _ _ _ (by omega) (by omega)]
      simp only [Nat.zero_add]
      exact ⟨trivial, fun _ => trivial⟩
    · refine ⟨?_, fun h => absurd h (by omega)⟩
      split
      · rw [extract_eq _ _ _ _ _ _ _ (by omega) (by omega)]
      · rw [extract_eq _ _ _ _ _ _ _ (by omega) (by omega)]

theorem packOne_eq (m h : Nat) (g : Nat → Nat → ℝ) (j r : Nat) (hj : j < m) (hr : r < h) :
    (forN m (fun j st => forN h (fun i st => push (g i j) st) st) (0, fun _ => (0 : ℝ))).2 (j*h + r) =
      g r j := by
  obtain ⟨-, a1, -⟩ := packCols_eq m h 0 0 g g g 0 (fun _ => 0)
  have := a1 j hj r (by omega)
  simp only [Nat.add_zero, Nat.zero_add] at this
  rw [show piece h 0 g g g r j = g r j by unfold piece; rw [if_pos hr]] at this
  exact this

/-! ## Solving -/

theorem divmod (m j r : Nat) (hr : r < m) : (j*m + r) % m = r ∧ (j*m + r)/m = j := by
  have hm : 0 < m := by omega
  constructor
  · rw [Nat.add_comm, Nat.add_mul_mod_self_right, Nat.mod_eq_of_lt hr]
  · rw [Nat.add_comm, Nat.add_mul_div_right _ _ hm, Nat.div_eq_of_lt hr, Nat.zero_add]

theorem solve_eq {v : Vtx} (wf : WellFormed v) :
    (ainvB v = none ∧
      solve (nIn v + nNeu v) (v.npcen + nDir v) (fun k => ((packA v).2 k).1) (packB v).2 = none) ∨
    ∃ X Y, ainvB v = some X ∧
      solve (nIn v + nNeu v) (v.npcen + nDir v) (fun k => ((packA v).2 k).1) (packB v).2 = some Y ∧
      ∀ (r : Fin (nSys v)) (j : Fin (v.npcen + nDir v)), Y (j*nSys v + r) = X r j := by
  have hA : (fun r c : Fin (nSys v) => ((packA v).2 (c*nSys v + r)).1) = aMat v := by
    funext r c
    exact (packA_eq wf c r c.2 r.2).1
  have hB : (fun (r : Fin (nSys v)) (j : Fin (v.npcen + nDir v)) => (packB v).2 (j*nSys v + r)) = bMat v := by
    funext r j
    exact packB_eq wf j r j.2 r.2
  have hs : solve (nIn v + nNeu v) (v.npcen + nDir v) (fun k => ((packA v).2 k).1) (packB v).2 =
      solve (nSys v) (v.npcen + nDir v) (fun k => ((packA v).2 k).1) (packB v).2 := rfl
  rw [hs]
  unfold solve ainvB
  dsimp only
  rw [hA, hB]
  by_cases hd : (aMat v).det = 0
  · left
    rw [if_pos hd, if_pos hd]
    exact ⟨rfl, rfl⟩
  · right
    rw [if_neg hd, if_neg hd]
    refine ⟨_, _, rfl, rfl, ?_⟩
    intro r j
    obtain ⟨h1, h2⟩ := divmod (nSys v) j r r.2
    have h : (j.1*nSys v + r.1) % nSys v < nSys v ∧ (j.1*nSys v + r.1)/nSys v < v.npcen + nDir v := by
      rw [h1, h2]; exact ⟨r.2, j.2⟩
    rw [dif_pos h]
    have e1 : (⟨_, h.1⟩ : Fin (nSys v)) = r := Fin.ext h1
    have e2 : (⟨_, h.2⟩ : Fin (v.npcen + nDir v)) = j := Fin.ext h2
    rw [e1, e2]

theorem gemm_eq (m k : Nat) (C X : Nat → ℝ) (j i : Nat) (hi : i < m) :
    gemm m k C X (j*m + i) = ∑ c ∈ Finset.range k, C (c*m + i) * X (j*k + c) := by
  obtain ⟨h1, h2⟩ := divmod m j i hi
  unfold gemm
  rw [h1, h2]

/-! ## Unpacking -/

/-- One column of the unpacking loops. -/
theorem unpackCol (h off j k0 : Nat) (e : Nat → Nat → ℝ) (T : Nat → Nat → ℝ) :
    let t := forN h (fun i st => (st.1 + 1, wr2 st.2 (i + off) j (e st.1 i))) (k0, T)
    t.1 = k0 + h ∧ (∀ i < h, t.2 (i + off) j = e (k0 + i) i) ∧
    ∀ a b, ¬ (off ≤ a ∧ a < off + h ∧ b = j) → t.2 a b = T a b := by
  intro t
  refine forN_invariant h (fun i st => (st.1 + 1, wr2 st.2 (i + off) j (e st.1 i))) (k0, T)
    (fun m st => st.1 = k0 + m ∧ (∀ i < m, st.2 (i + off) j = e (k0 + i) i) ∧
      ∀ a b, ¬ (off ≤ a ∧ a < off + h ∧ b = j) → st.2 a b = T a b)
    ⟨rfl, fun i hi => by omega, fun _ _ _ => rfl⟩ ?_
  rintro m ⟨x, s⟩ hm ⟨e0, e1, e2⟩
  simp only at e0 e1 e2
  subst e0
  refine ⟨by simp only; omega, ?_, ?_⟩
  · intro i hi
    simp only
    by_cases him : i = m
    · subst him; rw [wr2_same]
    · rw [wr2_other _ _ _ _ _ _ (by omega)]; exact e1 i (by omega)
  · intro a b hab
    simp only
    rw [wr2_other _ _ _ _ _ _ (by omega)]; exact e2 a b hab

/-- All columns; `skip` entries of the buffer are passed over after each. -/
theorem unpackCols (n h skip off : Nat) (e : Nat → Nat → Nat → ℝ) (T : Nat → Nat → ℝ) :
    let t := forN n (fun j st =>
      let st := forN h (fun i st => (st.1 + 1, wr2 st.2 (i + off) j (e st.1 i j))) st
      (st.1 + skip, st.2)) (0, T)
    (∀ j < n, ∀ i < h, t.2 (i + off) j = e (j*(h + skip) + i) i j) ∧
    ∀ a b, ¬ (off ≤ a ∧ a < off + h ∧ b < n) → t.2 a b = T a b := by
  intro t
  have := forN_invariant n (fun j st =>
      let st := forN h (fun i st => (st.1 + 1, wr2 st.2 (i + off) j (e st.1 i j))) st
      (st.1 + skip, st.2)) ((0, T) : Nat × (Nat → Nat → ℝ))
    (fun m st => st.1 = m*(h + skip) ∧ (∀ j < m, ∀ i < h, st.2 (i + off) j = e (j*(h + skip) + i) i j) ∧
      ∀ a b, ¬ (off ≤ a ∧ a < off + h ∧ b < n) → st.2 a b = T a b)
    ⟨by simp, fun j hj => by omega, fun _ _ _ => rfl⟩
    (by
      rintro m ⟨x, s⟩ hm ⟨e0, e1, e2⟩
      simp only at e0 e1 e2
      subst e0
      obtain ⟨c0, c1, c2⟩ := unpackCol h off m (m*(h + skip)) (fun k i => e k i m) s
      simp only
      refine ⟨?_, ?_, ?_⟩
      · rw [c0]; ring
      · intro j hj i hi
        by_cases hjm : j = m
        · subst hjm; exact c1 i hi
        · rw [c2 _ _ (by omega)]; exact e1 j (by omega) i hi
      · intro a b hab
        rw [c2 _ _ (by omega)]; exact e2 a b hab)
  exact this.2

end TDy.Mpfao.Buf.Proofs
