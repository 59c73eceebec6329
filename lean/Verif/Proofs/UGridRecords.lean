import Verif.Proofs.UGrid
import Mathlib.Data.Fin.Tuple.Sort

/-!
# Proofs about the records of an imported mesh
-/

namespace TDy.UGrid.Proofs

open TDy.UGrid.Spec

/-! ## A sorting routine exists -/

/-- A sorting permutation, from Mathlib. -/
noncomputable def someSort (n : Nat) (a : Nat → ℤ) (i : Nat) : Nat :=
  if h : i < n then (Tuple.sort (fun j : Fin n => a j) ⟨i, h⟩ : Fin n).val else i

theorem someSort_sorts : Sorts someSort := by
  intro n a
  refine ⟨?_, ?_, ?_, ?_⟩
  · intro i hi; unfold someSort; rw [dif_pos hi]; exact Fin.isLt _
  · intro i hi j hj h
    unfold someSort at h
    rw [dif_pos hi, dif_pos hj] at h
    have := (Tuple.sort (fun j : Fin n => a j)).injective (Fin.ext h)
    exact Fin.mk.inj_iff.1 this
  · intro k hk
    obtain ⟨i, hi⟩ := (Tuple.sort (fun j : Fin n => a j)).surjective ⟨k, hk⟩
    refine ⟨i.val, i.isLt, ?_⟩
    unfold someSort
    rw [dif_pos i.isLt]
    exact congrArg Fin.val hi
  · intro i j hij hj
    have hm := Tuple.monotone_sort (fun j : Fin n => a j)
    have hi : i < n := by omega
    unfold someSort
    rw [dif_pos hi, dif_pos hj]
    exact hm (show (⟨i, hi⟩ : Fin n) ≤ ⟨j, hj⟩ from hij)

/-! ## Packing -/

theorem put_new (x : ℤ) (s : Cursor) : (put x s).v s.count = x := wr_same _ _ _

theorem put_old (x : ℤ) (s : Cursor) {j : Nat} (h : j < s.count) : (put x s).v j = s.v j :=
  wr_other _ _ (by omega)

/-- Equal blocks hold equal records. -/
theorem recordAt_of_eq {L : Layout} {m : Mesh} {v v' : Nat → ℤ} {p p' c : Nat}
    (h : ∀ a < L.stride, v (p*L.stride + a) = v' (p'*L.stride + a)) (hr : RecordAt L m v' p' c) :
    RecordAt L m v p c := by
  have hS := stride_eq L
  have h0 := h 0 (by omega)
  refine ⟨?_, ?_, ?_, ?_, ?_, ?_⟩
  · rw [Nat.add_zero, Nat.add_zero] at h0; rw [h0]; exact hr.head
  · rw [h 1 (by omega)]; exact hr.sepV
  · intro k hk
    have := h (2 + k) (by omega)
    rw [← Nat.add_assoc, ← Nat.add_assoc] at this
    rw [this]; exact hr.verts k hk
  · have := h (2 + L.maxVerts) (by omega)
    rw [← Nat.add_assoc, ← Nat.add_assoc] at this
    rw [this]; exact hr.sepD
  · intro d hd
    have := h (2 + L.maxVerts + 1 + d) (by omega)
    simp only [← Nat.add_assoc] at this
    rw [this]; exact hr.duals d hd
  · have := h (2 + L.maxVerts + 1 + L.maxDual) (by omega)
    simp only [← Nat.add_assoc] at this
    rw [this]; exact hr.sepC

/-- Packing one cell. -/
theorem packCell_spec (L : Layout) (off : Nat) (cv : Nat → Nat → ℤ) (ia ja : Nat → Nat) (i : Nat)
    (s : Cursor) :
    (packCell L off cv ia ja i s).count = s.count + L.stride
      ∧ (∀ j < s.count, (packCell L off cv ia ja i s).v j = s.v j)
      ∧ (packCell L off cv ia ja i s).v s.count = -(off : ℤ) - i - 1
      ∧ (packCell L off cv ia ja i s).v (s.count + 1) = -777
      ∧ (∀ k < L.maxVerts, (packCell L off cv ia ja i s).v (s.count + 2 + k) = cv i k + 1)
      ∧ (packCell L off cv ia ja i s).v (s.count + 2 + L.maxVerts) = -888
      ∧ (∀ d < L.maxDual, (packCell L off cv ia ja i s).v (s.count + 2 + L.maxVerts + 1 + d)
          = if d < ia (i + 1) - ia i then (ja (ia i + d) : ℤ) + 1 else 0)
      ∧ (packCell L off cv ia ja i s).v (s.count + 2 + L.maxVerts + 1 + L.maxDual) = -999999 := by
  unfold packCell
  set s1 := put (-(off : ℤ) - i - 1) s with e1
  set s2 := put (-777) s1 with e2
  set s3 := forN L.maxVerts (fun k s => put (cv i k + 1) s) s2 with e3
  set s4 := put (-888) s3 with e4
  set s5 := forN L.maxDual (fun c s => put (if c < ia (i + 1) - ia i then (ja (ia i + c) : ℤ) + 1
    else 0) s) s4 with e5
  have c1 : s1.count = s.count + 1 := rfl
  have c2 : s2.count = s.count + 2 := rfl
  obtain ⟨c3, v3, o3⟩ := puts_apply L.maxVerts (fun k => cv i k + 1) s2
  rw [← e3] at c3 v3 o3
  have c4 : s4.count = s3.count + 1 := rfl
  obtain ⟨c5, v5, o5⟩ := puts_apply L.maxDual (fun c => if c < ia (i + 1) - ia i then
    (ja (ia i + c) : ℤ) + 1 else 0) s4
  rw [← e5] at c5 v5 o5
  have hS := stride_eq L
  have old : ∀ j < s3.count, (put (-999999) s5).v j = s3.v j := by
    intro j hj
    rw [put_old _ _ (by omega), o5 j (by omega), e4, put_old _ _ hj]
  refine ⟨?_, ?_, ?_, ?_, ?_, ?_, ?_, ?_⟩
  · rw [put_count, c5, c4, c3, c2]; omega
  · intro j hj
    rw [old j (by omega), o3 j (by omega), e2, put_old _ _ (by omega), e1, put_old _ _ hj]
  · rw [old _ (by omega), o3 _ (by omega), e2, put_old _ _ (by omega), e1, put_new]
  · rw [old _ (by omega), o3 _ (by omega), e2, ← c1, put_new]
  · intro k hk
    rw [old _ (by omega), ← c2, v3 k hk]
  · rw [put_old _ _ (by omega), o5 _ (by omega), e4, show s.count + 2 + L.maxVerts = s3.count by omega,
      put_new]
  · intro d hd
    rw [put_old _ _ (by omega), show s.count + 2 + L.maxVerts + 1 + d = s4.count + d by omega, v5 d hd]
  · rw [show s.count + 2 + L.maxVerts + 1 + L.maxDual = s5.count by omega, put_new]

theorem pack_records (L : Layout) (m : Mesh) (off n : Nat) (cv : Nat → Nat → ℤ) (ia ja : Nat → Nat)
    (v0 : Nat → ℤ) (hp : Packs m L off n cv ia ja) :
    (pack L off n cv ia ja v0).count = n*L.stride
      ∧ ∀ i < n, RecordAt L m (pack L off n cv ia ja v0).v i (off + i) := by
  unfold pack
  refine forN_invariant n _ _ (fun i (s : Cursor) => s.count = i*L.stride
    ∧ ∀ j < i, RecordAt L m s.v j (off + j)) ⟨by simp, fun j hj => by omega⟩ ?_
  intro i s hi ⟨hc, hr⟩
  obtain ⟨a1, a2, a3, a4, a5, a6, a7, a8⟩ := packCell_spec L off cv ia ja i s
  rw [hc] at a1 a2 a3 a4 a5 a6 a7 a8
  refine ⟨by rw [a1]; ring, ?_⟩
  intro j hj
  by_cases hji : j = i
  · subst hji
    have hrow := hp.row j hi
    refine ⟨by rw [a3]; push_cast; ring, a4, ?_, a6, ?_, a8⟩
    · intro k hk; rw [a5 k hk, hp.verts j hi k hk]
    · intro d hd
      rw [a7 d hd, hrow, show ia j + m.numDual (off + j) - ia j = m.numDual (off + j) by omega]
      by_cases h : d < m.numDual (off + j)
      · rw [if_pos h, if_pos h, hp.duals j hi d h]
      · rw [if_neg h, if_neg h]
  · refine recordAt_of_eq ?_ (hr j (by omega))
    intro a ha
    refine a2 _ ?_
    calc j*L.stride + a < j*L.stride + L.stride := by omega
      _ = (j + 1)*L.stride := by ring
      _ ≤ i*L.stride := Nat.mul_le_mul_right _ (by omega)

/-! ## Blocks moved to other places -/

/-- A nested loop that copies blocks of size `S` to distinct places. -/
theorem blocks_apply {α : Type*} (n S : Nat) (to_ : Nat → Nat) (f : Nat → Nat → α)
    (hinj : ∀ i < n, ∀ j < n, to_ i = to_ j → i = j) (v0 : Nat → α) :
    (∀ i < n, ∀ a < S,
      forN n (fun i v => forN S (fun k v => wr v (to_ i*S + k) (f i k)) v) v0 (to_ i*S + a) = f i a)
      ∧ (∀ p, (∀ i < n, ∀ a < S, p ≠ to_ i*S + a) →
        forN n (fun i v => forN S (fun k v => wr v (to_ i*S + k) (f i k)) v) v0 p = v0 p) := by
  have inner : ∀ (b : Nat) (g : Nat → α) (v : Nat → α), ∀ m : Nat,
      (∀ a < m, forN m (fun k v => wr v (b + k) (g k)) v (b + a) = g a)
        ∧ (∀ p, (∀ a < m, p ≠ b + a) → forN m (fun k v => wr v (b + k) (g k)) v p = v p) := by
    intro b g v m
    induction m with
    | zero => exact ⟨fun a ha => by omega, fun p _ => rfl⟩
    | succ m ih =>
      simp only [forN]
      refine ⟨fun a ha => ?_, fun p hp => ?_⟩
      · by_cases h : a = m
        · subst h; rw [wr_same]
        · rw [wr_other _ _ (by omega)]; exact ih.1 a (by omega)
      · rw [wr_other _ _ (hp m (by omega))]; exact ih.2 p (fun a ha => hp a (by omega))
  induction n with
  | zero => exact ⟨fun i hi => by omega, fun p _ => rfl⟩
  | succ n ih =>
    have ih := ih (fun i hi j hj => hinj i (by omega) j (by omega))
    simp only [forN]
    obtain ⟨b1, b2⟩ := inner (to_ n*S) (f n) (forN n (fun i v => forN S (fun k v =>
      wr v (to_ i*S + k) (f i k)) v) v0) S
    refine ⟨fun i hi a ha => ?_, fun p hp => ?_⟩
    · by_cases h : i = n
      · subst h; exact b1 a ha
      · rw [b2 _ ?_]
        · exact ih.1 i (by omega) a ha
        · intro a' ha' h'
          exact h (hinj i (by omega) n (by omega) (pos_inj ha ha' h').1)
    · rw [b2 _ (hp n (by omega))]; exact ih.2 p (fun i hi => hp i (by omega))

theorem postPart_records (L : Layout) (m : Mesh) (N : Nat) (place cell : Nat → Nat)
    (hn : Numbering N place cell) (pre junk : Nat → ℤ) (h : ∀ c < N, RecordAt L m pre c c) :
    ∀ p < N, RecordAt L m (postPart L N place pre junk) p (cell p) := by
  intro p hp
  have hc := hn.cellLt p hp
  refine recordAt_of_eq (v' := pre) (p' := cell p) ?_ (h _ hc)
  intro a ha
  have := (blocks_apply N L.stride place (fun c k => pre (c*L.stride + k)) (fun i hi j hj e => by
    rw [← hn.cellPlace i hi, ← hn.cellPlace j hj, e]) junk).1 (cell p) hc a ha
  rw [hn.placeCell p hp] at this
  exact this

theorem naturalIds_apply (L : Layout) (m : Mesh) (n : Nat) (v : Nat → ℤ) (cell : Nat → Nat)
    (h : ∀ i < n, RecordAt L m v i (cell i)) : ∀ i < n, naturalIds L n v i = cell i := by
  intro i hi
  unfold naturalIds
  rw [forN_fill n (fun i => -(v (i*L.stride)) - 1), if_pos hi, (h i hi).head]
  ring

/-! ## A vector over all ranks -/

theorem distribute_apply (ranks : Nat) (off : Nat → Nat) (S : Nat) (hmono : ∀ r, off r ≤ off (r + 1))
    (part : Nat → Nat → ℤ) : ∀ r < ranks, ∀ p < (off (r + 1) - off r)*S,
      distribute ranks (fun r => off r*S) (fun r => (off (r + 1) - off r)*S) part (off r*S + p)
        = part r p := by
  have inner : ∀ (b : Nat) (g : Nat → ℤ) (v : Nat → ℤ), ∀ m : Nat,
      (∀ a < m, forN m (fun k v => wr v (b + k) (g k)) v (b + a) = g a)
        ∧ (∀ p < b, forN m (fun k v => wr v (b + k) (g k)) v p = v p) := by
    intro b g v m
    induction m with
    | zero => exact ⟨fun a ha => by omega, fun p _ => rfl⟩
    | succ m ih =>
      simp only [forN]
      refine ⟨fun a ha => ?_, fun p hp => ?_⟩
      · by_cases h : a = m
        · subst h; rw [wr_same]
        · rw [wr_other _ _ (by omega)]; exact ih.1 a (by omega)
      · rw [wr_other _ _ (by omega)]; exact ih.2 p hp
  have mono : ∀ a b, a ≤ b → off a ≤ off b := by
    intro a b hab
    induction hab with
    | refl => exact le_refl _
    | step _ ih => exact le_trans ih (hmono _)
  induction ranks with
  | zero => intro r hr; omega
  | succ R ih =>
    intro r hr p hp
    unfold distribute at ih ⊢
    simp only [forN]
    obtain ⟨b1, b2⟩ := inner (off R*S) (part R) (forN R (fun r v =>
      forN ((off (r + 1) - off r)*S) (fun p v => wr v (off r*S + p) (part r p)) v) (fun _ => 0))
      ((off (R + 1) - off R)*S)
    by_cases h : r = R
    · subst h; exact b1 p hp
    · rw [b2 _ ?_]
      · exact ih r (by omega) p hp
      · have h1 : off (r + 1) ≤ off R := mono _ _ (by omega)
        have h2 := hmono r
        calc off r*S + p < off r*S + (off (r + 1) - off r)*S := by omega
          _ = (off r + (off (r + 1) - off r))*S := by ring
          _ = off (r + 1)*S := by congr 1; omega
          _ ≤ off R*S := Nat.mul_le_mul_right _ h1

/-- A cell belongs to some rank. -/
theorem owner (ranks : Nat) (off : Nat → Nat) (h0 : off 0 = 0) :
    ∀ c < off ranks, ∃ r < ranks, off r ≤ c ∧ c < off (r + 1) := by
  induction ranks with
  | zero => intro c hc; omega
  | succ R ih =>
    intro c hc
    by_cases h : c < off R
    · obtain ⟨r, hr, e⟩ := ih c h; exact ⟨r, by omega, e⟩
    · exact ⟨R, by omega, by omega, hc⟩

/-! ## Scatter with a condition -/

theorem scatterIf_apply {α : Type*} (Q : Nat) (C : Nat → Prop) [DecidablePred C] (pos : Nat → Nat)
    (x : Nat → α) (T : Nat → α) (h : ∀ q < Q, C q → x q = T (pos q)) (a0 : Nat → α) :
    (∀ q < Q, C q → forN Q (fun q a => if C q then wr a (pos q) (x q) else a) a0 (pos q) = T (pos q))
      ∧ (∀ p, (∀ q < Q, C q → pos q ≠ p) →
        forN Q (fun q a => if C q then wr a (pos q) (x q) else a) a0 p = a0 p) := by
  induction Q with
  | zero => exact ⟨fun q hq => by omega, fun p _ => rfl⟩
  | succ Q ih =>
    obtain ⟨h1, h2⟩ := ih (fun q hq => h q (by omega))
    simp only [forN]
    by_cases hC : C Q
    · rw [if_pos hC]
      refine ⟨fun q hq hq' => ?_, fun p hp => ?_⟩
      · by_cases e : pos q = pos Q
        · rw [e, wr_same, h Q (by omega) hC]
        · rw [wr_other _ _ e]
          have : q ≠ Q := fun e' => e (by rw [e'])
          exact h1 q (by omega) hq'
      · rw [wr_other _ _ (fun e => hp Q (by omega) hC e.symm)]
        exact h2 p (fun q hq => hp q (by omega))
    · rw [if_neg hC]
      refine ⟨fun q hq hq' => ?_, fun p hp => h2 p (fun q hq => hp q (by omega))⟩
      have : q ≠ Q := fun e' => hC (e' ▸ hq')
      exact h1 q (by omega) hq'

theorem updateNatural_apply (L : Layout) (n : Nat) (natural v v2 : Nat → ℤ) (T : Nat → ℤ)
    (hT : ∀ i < n, ∀ d < L.maxDual, (n : ℤ) < v (L.dualPos i d) →
      v2 (L.dualPos i d) - 1 = T (v (L.dualPos i d) - 1).toNat) :
    (∀ i < n, updateNatural L n natural v v2 i = natural i)
      ∧ (∀ i < n, ∀ d < L.maxDual, (n : ℤ) < v (L.dualPos i d) →
        updateNatural L n natural v v2 (v (L.dualPos i d) - 1).toNat
          = T (v (L.dualPos i d) - 1).toNat) := by
  have hflat : updateNatural L n natural v v2 = forN (n*L.maxDual) (fun q a =>
      if 0 ≤ v (dq L q) ∧ (n : ℤ) < v (dq L q) then wr a (v (dq L q) - 1).toNat (v2 (dq L q) - 1) else a)
      (forN n (fun i a => wr a i (natural i)) (fun _ => 0)) := by
    unfold updateNatural
    rw [forN_nest n L.maxDual (fun i d a => naturalStep L n v v2 i d a)]
    refine forN_congr _ _ _ _ ?_
    intro q _
    funext a
    unfold naturalStep dq
    by_cases h1 : 0 ≤ v (L.dualPos (q/L.maxDual) (q%L.maxDual)) <;>
      by_cases h2 : (n : ℤ) < v (L.dualPos (q/L.maxDual) (q%L.maxDual)) <;> simp [h1, h2]
  have hs := scatterIf_apply (n*L.maxDual) (fun q => 0 ≤ v (dq L q) ∧ (n : ℤ) < v (dq L q))
    (fun q => (v (dq L q) - 1).toNat) (fun q => v2 (dq L q) - 1) T (by
      intro q hq hC
      have := dq_to L n q hq
      exact hT _ this.1 _ this.2 hC.2)
    (forN n (fun i a => wr a i (natural i)) (fun _ => 0))
  rw [hflat]
  constructor
  · intro i hi
    rw [hs.2 i ?_]
    · rw [forN_fill n natural, if_pos hi]
    · intro q _ hC h
      omega
  · intro i hi d hd h
    obtain ⟨hq, e⟩ := dq_of L n i d hi hd
    rw [← e] at h ⊢
    exact hs.1 _ hq ⟨by omega, h⟩

/-! ## The rows of neighbours -/

theorem neighbours_apply (L : Layout) (n : Nat) (v : Nat → ℤ) (i nd : Nat) (hnd : nd ≤ L.maxDual)
    (hpos : ∀ d < L.maxDual, 0 < v (L.dualPos i d) ↔ d < nd) :
    (neighbours L n v i).num = nd ∧ ∀ d < nd, (neighbours L n v i).ids d
      = if (n : ℤ) < v (L.dualPos i d) then -(v (L.dualPos i d)) + 1 else v (L.dualPos i d) - 1 := by
  have key : ∀ k ≤ L.maxDual, (forN k (neighbourStep L n v i) ⟨0, fun _ => 0⟩).num = min k nd
      ∧ ∀ d < min k nd, (forN k (neighbourStep L n v i) ⟨0, fun _ => 0⟩).ids d
        = if (n : ℤ) < v (L.dualPos i d) then -(v (L.dualPos i d)) + 1 else v (L.dualPos i d) - 1 := by
    intro k
    induction k with
    | zero => intro _; exact ⟨by simp [forN], fun d hd => by omega⟩
    | succ k ih =>
      intro hk
      obtain ⟨i1, i2⟩ := ih (by omega)
      simp only [forN]
      unfold neighbourStep
      by_cases h : 0 < v (L.dualPos i k)
      · rw [if_pos h]
        have hkn := (hpos k (by omega)).1 h
        refine ⟨?_, ?_⟩
        · show _ + 1 = _
          have := i1
          unfold neighbourStep at this
          rw [this]; omega
        · intro d hd
          show wr _ _ _ d = _
          by_cases e : d = k
          · subst e; rw [wr_same]
          · rw [wr_other _ _ e]; exact i2 d (by omega)
      · rw [if_neg h]
        have hkn : ¬ k < nd := fun h' => h ((hpos k (by omega)).2 h')
        refine ⟨?_, ?_⟩
        · have := i1
          unfold neighbourStep at this
          rw [this]; omega
        · intro d hd; exact i2 d (by omega)
  have := key L.maxDual (le_refl _)
  unfold neighbours
  rw [min_eq_right hnd] at this
  exact this

end TDy.UGrid.Proofs
