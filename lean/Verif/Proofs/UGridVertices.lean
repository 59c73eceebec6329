import Verif.Proofs.UGridRecords

/-!
# Proofs about the local vertices of an imported mesh
-/

namespace TDy.UGrid.Proofs

open TDy.UGrid.Spec

/-- The vertex slot visited in iteration `q` of the flattened loop. -/
def vq (L : Layout) (q : Nat) : Nat := L.vertPos (q/L.maxVerts) (q%L.maxVerts)

theorem vq_inj (L : Layout) (hm : 0 < L.maxVerts) (i j : Nat) (h : vq L i = vq L j) : i = j := by
  unfold vq at h
  rw [vertPos_eq, vertPos_eq] at h
  have hi' := Nat.mod_lt i hm
  have hj' := Nat.mod_lt j hm
  have hS := stride_eq L
  have := pos_inj (by omega) (by omega) h
  rw [← Nat.div_add_mod i L.maxVerts, ← Nat.div_add_mod j L.maxVerts, this.1,
    show i%L.maxVerts = j%L.maxVerts by omega]

theorem vq_of (L : Layout) (n i k : Nat) (hi : i < n) (hk : k < L.maxVerts) :
    i*L.maxVerts + k < n*L.maxVerts ∧ vq L (i*L.maxVerts + k) = L.vertPos i k := by
  have hm : 0 < L.maxVerts := by omega
  constructor
  · calc i*L.maxVerts + k < i*L.maxVerts + L.maxVerts := by omega
      _ = (i + 1)*L.maxVerts := by ring
      _ ≤ n*L.maxVerts := Nat.mul_le_mul_right _ hi
  · unfold vq
    rw [Nat.mul_comm i, Nat.mul_add_div hm, Nat.div_eq_of_lt hk, Nat.mul_add_mod, Nat.mod_eq_of_lt hk]
    rfl

theorem vq_to (L : Layout) (n q : Nat) (hq : q < n*L.maxVerts) :
    q/L.maxVerts < n ∧ q%L.maxVerts < L.maxVerts := by
  have hm : 0 < L.maxVerts := by
    rcases Nat.eq_zero_or_pos L.maxVerts with h | h
    · rw [h] at hq; omega
    · exact h
  exact ⟨Nat.div_lt_of_lt_mul (by rw [Nat.mul_comm]; exact hq), Nat.mod_lt _ hm⟩

/-- After the first `Q` slots. -/
structure VMarked (L : Layout) (Q : Nat) (v0 : Nat → ℤ) (s : Ghosts) : Prop where
  none : ∀ q < Q, v0 (vq L q) ≤ 0 → s.v (vq L q) = v0 (vq L q)
  some : ∀ q < Q, 0 < v0 (vq L q) → ∃ c < s.num, s.v (vq L q) = (c : ℤ) + 1 ∧ s.ids c = v0 (vq L q)
  rest : ∀ p, (∀ q < Q, vq L q ≠ p) → s.v p = v0 p
  only : ∀ c < s.num, ∃ q < Q, 0 < v0 (vq L q) ∧ s.ids c = v0 (vq L q)

theorem vmarked_loop (L : Layout) (Q : Nat) (v0 : Nat → ℤ) (hQ : 0 < L.maxVerts ∨ Q = 0) :
    VMarked L Q v0 (forN Q (fun q s => vertexStep L (q/L.maxVerts) (q%L.maxVerts) s)
      ⟨v0, fun _ => 0, 0⟩) := by
  induction Q with
  | zero =>
    exact ⟨fun q hq => by omega, fun q hq => by omega, fun p _ => rfl,
      fun c hc => by simp [forN] at hc⟩
  | succ Q ih =>
    have hm : 0 < L.maxVerts := by omega
    have ih := ih (Or.inl hm)
    simp only [forN]
    set s := forN Q (fun q s => vertexStep L (q/L.maxVerts) (q%L.maxVerts) s)
      (⟨v0, fun _ => 0, 0⟩ : Ghosts) with hs
    have hne : ∀ q < Q, vq L q ≠ vq L Q := fun q hq h => by have := vq_inj L hm q Q h; omega
    have hsQ : s.v (vq L Q) = v0 (vq L Q) := ih.rest _ hne
    unfold vertexStep
    change VMarked L (Q + 1) v0 (if 0 < s.v (vq L Q) then
      ⟨wr s.v (vq L Q) ((s.num : ℤ) + 1), wr s.ids s.num (s.v (vq L Q)), s.num + 1⟩ else s)
    rw [hsQ]
    by_cases h : 0 < v0 (vq L Q)
    · rw [if_pos h]
      refine ⟨?_, ?_, ?_, ?_⟩
      · intro q hq hle
        simp only []
        have : q ≠ Q := fun e => by subst e; omega
        rw [wr_other _ _ (hne q (by omega))]
        exact ih.none q (by omega) hle
      · intro q hq hp
        simp only []
        by_cases e : q = Q
        · subst e
          exact ⟨s.num, by omega, by rw [wr_same], by rw [wr_same]⟩
        · obtain ⟨c, hc, e1, e2⟩ := ih.some q (by omega) hp
          refine ⟨c, by omega, ?_, ?_⟩
          · rw [wr_other _ _ (hne q (by omega))]; exact e1
          · rw [wr_other _ _ (by omega)]; exact e2
      · intro p hp
        simp only []
        rw [wr_other _ _ (fun e => hp Q (by omega) e.symm)]
        exact ih.rest p (fun q hq => hp q (by omega))
      · intro c hc
        simp only [] at hc ⊢
        by_cases e : c = s.num
        · subst e
          exact ⟨Q, by omega, h, by rw [wr_same]⟩
        · obtain ⟨q, hq, e1, e2⟩ := ih.only c (by omega)
          refine ⟨q, by omega, e1, ?_⟩
          rw [wr_other _ _ e]; exact e2
    · rw [if_neg h]
      refine ⟨?_, ?_, ?_, ?_⟩
      · intro q hq hle
        by_cases e : q = Q
        · subst e; exact hsQ
        · exact ih.none q (by omega) hle
      · intro q hq hp
        have : q ≠ Q := fun e => by subst e; omega
        exact ih.some q (by omega) hp
      · intro p hp; exact ih.rest p (fun q hq => hp q (by omega))
      · intro c hc
        obtain ⟨q, hq, e1, e2⟩ := ih.only c hc
        exact ⟨q, by omega, e1, e2⟩

theorem markVertices_marked (L : Layout) (m : Nat) (v0 : Nat → ℤ) :
    VMarked L (m*L.maxVerts) v0 (markVertices L m v0) := by
  have h : markVertices L m v0 = forN (m*L.maxVerts)
      (fun q s => vertexStep L (q/L.maxVerts) (q%L.maxVerts) s) ⟨v0, fun _ => 0, 0⟩ := by
    unfold markVertices
    rw [forN_nest]
  rw [h]
  refine vmarked_loop L _ v0 ?_
  rcases Nat.eq_zero_or_pos L.maxVerts with h | h
  · right; rw [h, Nat.mul_zero]
  · left; exact h

theorem present_succ (vert : Nat → ℤ) (k : Nat) :
    present vert (k + 1) = present vert k ++ (if 0 ≤ vert k then [vert k] else []) := by
  unfold present
  rw [List.range_succ, List.map_append, List.filter_append]
  congr 1
  by_cases h : 0 ≤ vert k
  · simp [h]
  · simp [h]

/-- What renumbering the vertices of `m` cells does: cell `i` has the vertices `vert i`. -/
structure Renumbered (m mv : Nat) (vert : Nat → Nat → ℤ) (r : Vertices) : Prop where
  num : ∀ i < m, (r.cell i).num = (present (vert i) mv).length
  decode : ∀ i < m, ∀ j < (r.cell i).num, (r.cell i).ids j < r.num
    ∧ (present (vert i) mv)[j]? = some (r.natural ((r.cell i).ids j))
  strict : ∀ g h, g < h → h < r.num → r.natural g < r.natural h
  used : ∀ g < r.num, ∃ i < m, ∃ k < mv, 0 ≤ vert i k ∧ r.natural g = vert i k

theorem renumberVertices_spec (L : Layout) (m : Nat) (sort : Nat → (Nat → ℤ) → Nat → Nat)
    (hsort : Sorts sort) (v : Nat → ℤ) (vert : Nat → Nat → ℤ)
    (hv : ∀ i < m, ∀ k < L.maxVerts, v (L.vertPos i k) = vert i k + 1)
    (hne : ∃ i < m, ∃ k < L.maxVerts, 0 ≤ vert i k) :
    ∃ r, renumberVertices L m sort v = .ok r ∧ Renumbered m L.maxVerts vert r := by
  have hM := markVertices_marked L m v
  unfold renumberVertices
  set s := markVertices L m v with hs
  have hnum : s.num ≠ 0 := by
    obtain ⟨i, hi, k, hk, h⟩ := hne
    obtain ⟨hq, e⟩ := vq_of L m i k hi hk
    obtain ⟨c, hc, _⟩ := hM.some _ hq (by rw [e, hv i hi k hk]; omega)
    omega
  simp only []
  rw [if_neg hnum]
  refine ⟨_, rfl, ?_⟩
  have ht := vdedup_spec s.num (by omega) (fun k => s.ids k - 1) (sort s.num (fun k => s.ids k - 1))
    (hsort _ _)
  change (vertexTable sort s).count < s.num ∧ (∀ k < s.num, (vertexTable sort s).a4 k
    ≤ (vertexTable sort s).count ∧ (vertexTable sort s).a3 ((vertexTable sort s).a4 k) = s.ids k - 1)
    ∧ (∀ i j, i < j → j ≤ (vertexTable sort s).count → (vertexTable sort s).a3 i
      < (vertexTable sort s).a3 j) ∧ (∀ j ≤ (vertexTable sort s).count, ∃ k < s.num,
        (vertexTable sort s).a3 j = s.ids k - 1) at ht
  set t := vertexTable sort s with htt
  obtain ⟨t1, t2, t3, t4⟩ := ht
  have hnat : ∀ g < t.count + 1, forN (t.count + 1) (fun k a => wr a k (t.a3 k)) (fun _ => 0) g
      = t.a3 g := by
    intro g hg; rw [forN_fill (t.count + 1) (fun g => t.a3 g), if_pos hg]
  have row : ∀ i < m, ∀ k ≤ L.maxVerts,
      (forN k (cellVertsStep L t s.v i) ⟨0, fun _ => 0⟩).num = (present (vert i) k).length
        ∧ ∀ j < (present (vert i) k).length,
          (forN k (cellVertsStep L t s.v i) ⟨0, fun _ => 0⟩).ids j < t.count + 1
            ∧ (present (vert i) k)[j]? = some (t.a3
              ((forN k (cellVertsStep L t s.v i) ⟨0, fun _ => 0⟩).ids j)) := by
    intro i hi k
    induction k with
    | zero => intro _; exact ⟨rfl, fun j hj => by simp [present] at hj⟩
    | succ k ih =>
      intro hk
      obtain ⟨i1, i2⟩ := ih (by omega)
      simp only [forN]
      set u := forN k (cellVertsStep L t s.v i) (⟨0, fun _ => 0⟩ : CellVerts) with hu
      obtain ⟨hq, e⟩ := vq_of L m i k hi (by omega)
      have hvk := hv i hi k (by omega)
      rw [present_succ]
      unfold cellVertsStep
      by_cases h : 0 ≤ vert i k
      · obtain ⟨c, hc, e1, e2⟩ := hM.some _ hq (by rw [e, hvk]; omega)
        rw [e] at e1 e2
        rw [if_pos (show 0 < s.v (L.vertPos i k) by rw [e1]; omega), if_pos h]
        have hcast : (s.v (L.vertPos i k) - 1).toNat = c := by rw [e1]; omega
        obtain ⟨u1, u2⟩ := t2 c hc
        refine ⟨by simp only [List.length_append, List.length_singleton]; rw [i1], ?_⟩
        intro j hj
        rw [List.length_append, List.length_singleton] at hj
        simp only []
        rw [hcast, i1]
        by_cases ej : j = (present (vert i) k).length
        · subst ej
          rw [wr_same]
          refine ⟨by omega, ?_⟩
          rw [List.getElem?_append_right (le_refl _), Nat.sub_self, u2, e2, hvk]
          simp
        · rw [wr_other _ _ ej, List.getElem?_append_left (by omega)]
          exact i2 j (by omega)
      · have hz := hM.none _ hq (by rw [e, hvk]; omega)
        rw [e, hvk] at hz
        rw [if_neg (show ¬ 0 < s.v (L.vertPos i k) by rw [hz]; omega), if_neg h, List.append_nil]
        exact ⟨i1, i2⟩
  refine ⟨?_, ?_, ?_, ?_⟩
  · intro i hi; exact (row i hi _ (le_refl _)).1
  · intro i hi j hj
    have hr := row i hi _ (le_refl _)
    simp only [] at hj ⊢
    rw [hr.1] at hj
    obtain ⟨a, b⟩ := hr.2 j hj
    refine ⟨a, ?_⟩
    rw [hnat _ a]; exact b
  · intro g h hgh hh
    simp only [] at hh ⊢
    rw [hnat g (by omega), hnat h hh]
    exact t3 g h hgh (by omega)
  · intro g hg
    simp only [] at hg ⊢
    rw [hnat g hg]
    obtain ⟨k, hk, e⟩ := t4 g (by omega)
    obtain ⟨q, hq, e1, e2⟩ := hM.only k hk
    have hto := vq_to L m q hq
    have hvv := hv _ hto.1 _ hto.2
    have e1' : 0 < v (L.vertPos (q/L.maxVerts) (q%L.maxVerts)) := e1
    refine ⟨_, hto.1, _, hto.2, by omega, ?_⟩
    rw [e, e2]
    show v (L.vertPos (q/L.maxVerts) (q%L.maxVerts)) - 1 = _
    omega

theorem localCells_apply (n : Nat) (petsc ghosts : Nat → ℤ) (numGhost : Nat) :
    (∀ i < n, localCells n petsc ghosts numGhost i = petsc i)
      ∧ (∀ g < numGhost, localCells n petsc ghosts numGhost (n + g) = ghosts g) := by
  have h : ∀ m, (∀ g < m, forN m (fun g a => wr a (n + g) (ghosts g))
        (forN n (fun i a => wr a i (petsc i)) (fun _ => 0)) (n + g) = ghosts g)
      ∧ (∀ i < n, forN m (fun g a => wr a (n + g) (ghosts g))
        (forN n (fun i a => wr a i (petsc i)) (fun _ => 0)) i = petsc i) := by
    intro m
    induction m with
    | zero =>
      refine ⟨fun g hg => by omega, fun i hi => ?_⟩
      simp only [forN]
      rw [forN_fill n petsc, if_pos hi]
    | succ m ih =>
      simp only [forN]
      refine ⟨fun g hg => ?_, fun i hi => ?_⟩
      · by_cases e : g = m
        · subst e; rw [wr_same]
        · rw [wr_other _ _ (by omega)]; exact ih.1 g (by omega)
      · rw [wr_other _ _ (by omega)]; exact ih.2 i hi
  unfold localCells
  rw [show n + numGhost - n = numGhost by omega]
  exact ⟨(h numGhost).2, (h numGhost).1⟩

theorem localRecords_apply (L : Layout) (m : Nat) (idx v : Nat → ℤ) :
    ∀ i < m, ∀ a < L.stride, localRecords L m idx v (i*L.stride + a)
      = v ((idx i).toNat*L.stride + a) :=
  (blocks_apply m L.stride (fun i => i) (fun i k => v ((idx i).toNat*L.stride + k))
    (fun _ _ _ _ h => h) (fun _ => 0)).1

theorem localCoords_apply {α : Type} (num : Nat) (natural : Nat → ℤ) (coords old : Nat → Nat → α) :
    ∀ i < num, ∀ k < 3, localCoords num natural coords old i k = coords (natural i).toNat k := by
  have inner : ∀ (i m : Nat) (a : Nat → Nat → α), ∀ i' k', forN m (fun k a => fun i' k' =>
      if i' = i ∧ k' = k then coords (natural i).toNat k else a i' k') a i' k'
      = if i' = i ∧ k' < m then coords (natural i).toNat k' else a i' k' := by
    intro i m a
    induction m with
    | zero => intro i' k'; simp [forN]
    | succ m ih =>
      intro i' k'
      simp only [forN]
      by_cases h : i' = i ∧ k' = m
      · rw [if_pos h, if_pos ⟨h.1, by omega⟩, h.2]
      · rw [if_neg h, ih i' k']
        by_cases h2 : i' = i ∧ k' < m
        · rw [if_pos h2, if_pos ⟨h2.1, by omega⟩]
        · rw [if_neg h2, if_neg]
          rintro ⟨e1, e2⟩
          by_cases e : k' = m
          · exact h ⟨e1, e⟩
          · exact h2 ⟨e1, by omega⟩
  unfold localCoords
  induction num with
  | zero => intro i hi; omega
  | succ n ih =>
    intro i hi k hk
    refine (inner n 3 _ i k).trans ?_
    by_cases e : i = n
    · rw [if_pos ⟨e, hk⟩, e]
    · rw [if_neg (fun h => e h.1)]; exact ih i (by omega) k hk

end TDy.UGrid.Proofs
