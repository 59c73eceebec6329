import Verif.Proofs.MeshFaces

/-!
# Faces of an imported mesh: merging the two copies of a shared face
-/

namespace TDy.Custom.Proofs

open TDy.Custom TDy.Custom.Spec TDy.Mesh TDy.Mesh.Proofs TDy.Topology

/-- Face `k` of cell `i` is the second copy of face `l` of cell `j`, and the pair of cells has been processed. -/
structure Dup (u : UG) (P : Nat → Nat → Prop) (j l i k : Nat) : Prop where
  lt : j < i
  ng : i < u.ng
  pair : P j i
  hl : l < u.nf j
  hk : k < u.nf i
  eq : faceSet u j l = faceSet u i k

theorem Dup.unique {u : UG} (hc : Conforming u) {P : Nat → Nat → Prop} {j l j' l' i k : Nat} (h : Dup u P j l i k)
    (h' : Dup u P j' l' i k) : j = j' ∧ l = l' := by
  have e : faceSet u j l = faceSet u j' l' := h.eq.trans h'.eq.symm
  have h1 := h.lt; have h2 := h'.lt; have h3 := h.ng
  by_cases hj : j = j'
  · subst hj
    exact ⟨rfl, faceSet_inj hc (by omega) h.hl h'.hl e⟩
  · exact absurd h'.eq (hc.two j (by omega) j' (by omega) i h3 hj (by omega) (by omega) l h.hl l' h'.hl k h.hk e)

theorem Dup.unique_right {u : UG} (hc : Conforming u) {P : Nat → Nat → Prop} {j l i k i' k' : Nat}
    (h : Dup u P j l i k) (h' : Dup u P j l i' k') : i = i' ∧ k = k' := by
  have e : faceSet u i k = faceSet u i' k' := h.eq.symm.trans h'.eq
  have h1 := h.lt; have h2 := h'.lt; have h3 := h.ng; have h4 := h'.ng
  by_cases hi : i = i'
  · subst hi
    exact ⟨rfl, faceSet_inj hc h3 h.hk h'.hk e⟩
  · exact absurd e (hc.two j (by omega) i h3 i' h4 (by omega) hi (by omega) l h.hl k h.hk k' h'.hk h.eq)

/-- A second copy is not itself the first copy of another face. -/
theorem Dup.no_chain {u : UG} (hc : Conforming u) {P Q : Nat → Nat → Prop} {j l i k a b : Nat} (h : Dup u P j l i k)
    (h' : Dup u Q i k a b) : False := by
  have h1 := h.lt; have h2 := h'.lt; have h4 := h'.ng
  exact hc.two j (by omega) i h.ng a h4 (by omega) (by omega) (by omega) l h.hl k h.hk b h'.hk h.eq h'.eq

/-- The maps when the pairs `P` have been processed. -/
structure MergeInv (u : UG) (P : Nat → Nat → Prop) (m : Maps) : Prop where
  f2v : m.f2v = (setupMaps u).f2v
  dup : ∀ j l i k, Dup u P j l i k →
    m.c2f k i = (off u j + l : Nat) ∧ m.f2c 0 (off u i + k) = -(i : Int) ∧ m.f2c 1 (off u j + l) = i
  own : ∀ i k, i < u.ng → k < u.nf i → (∀ j l, ¬ Dup u P j l i k) →
    m.c2f k i = (off u i + k : Nat) ∧ m.f2c 0 (off u i + k) = i
  single : ∀ j l, j < u.ng → l < u.nf j → (∀ i k, ¬ Dup u P j l i k) → m.f2c 1 (off u j + l) = -1
  rest : ∀ f, off u u.ng ≤ f → m.f2c 0 f = -1

theorem MergeInv.congr {u : UG} {P Q : Nat → Nat → Prop} {m : Maps} (h : MergeInv u P m)
    (e : ∀ j l i k, Dup u P j l i k ↔ Dup u Q j l i k) : MergeInv u Q m :=
  ⟨h.f2v, fun j l i k hd => h.dup j l i k ((e j l i k).2 hd),
    fun i k hi hk hn => h.own i k hi hk (fun j l hd => hn j l ((e j l i k).1 hd)),
    fun j l hj hl hn => h.single j l hj hl (fun i k hd => hn i k ((e j l i k).1 hd)), h.rest⟩

/-- The rows of `face_to_vertex` at the first number of a face. -/
theorem first_vertices {u : UG} (hc : Conforming u) {i k : Nat} (hi : i < u.ng) (hk : k < u.nf i) (x : Int) :
    (∃ v < u.nvf i k, (setupMaps u).f2v v (off u i + k) = x) ↔ x ∈ faceSet u i k := by
  have h := (setupMaps_spec u).f2v i k ⟨hk, .inl hi⟩
  have hlen := (corners_spec hc hi hk).1
  unfold faceSet
  rw [List.mem_toFinset, List.mem_map]
  constructor
  · rintro ⟨v, hv, e⟩
    rw [h v hv] at e
    have hv' : v < (u.corners i k).length := by omega
    refine ⟨_, List.getElem_mem hv', ?_⟩
    rw [← e]
    simp [List.getD, hv']
  · rintro ⟨a, ha, e⟩
    obtain ⟨v, hv, e'⟩ := List.getElem_of_mem ha
    refine ⟨v, by omega, ?_⟩
    rw [h v (by omega), ← e, ← e']
    simp [List.getD, hv]

theorem MergeInv.good {u : UG} (hc : Conforming u) {P : Nat → Nat → Prop} {m : Maps} (h : MergeInv u P m) :
    Good u m.c2f m.f2v := by
  intro i hi k hk x
  by_cases hd : ∃ j l, Dup u P j l i k
  · obtain ⟨j, l, hd⟩ := hd
    have hlt := hd.lt
    have hj : j < u.ng := by omega
    rw [(h.dup j l i k hd).1, Int.toNat_natCast, h.f2v, ← hd.eq, ← first_vertices hc hj hd.hl,
      show u.nvf i k = u.nvf j l by rw [← faceSet_card hc hi hk, ← faceSet_card hc hj hd.hl, hd.eq]]
  · rw [(h.own i k hi hk (fun j l hh => hd ⟨j, l, hh⟩)).1, Int.toNat_natCast, h.f2v, first_vertices hc hi hk]

/-- One pair of cells. -/
theorem MergeInv.merge {u : UG} (hc : Conforming u) {P : Nat → Nat → Prop} {m : Maps} (h : MergeInv u P m)
    {i i2 k k2 : Nat} (hi2 : i2 < u.ng) (hlt : i < i2) (hk : k < u.nf i) (hk2 : k2 < u.nf i2)
    (heq : faceSet u i k = faceSet u i2 k2) (hnew : ¬ P i i2) :
    MergeInv u (fun a b => P a b ∨ (a = i ∧ b = i2)) (mergeFaces m i i2 k k2) := by
  have hi : i < u.ng := by omega
  set Q : Nat → Nat → Prop := fun a b => P a b ∨ (a = i ∧ b = i2) with hQ
  have up : ∀ {j l a b}, Dup u P j l a b → Dup u Q j l a b := fun hd =>
    ⟨hd.lt, hd.ng, .inl hd.pair, hd.hl, hd.hk, hd.eq⟩
  have new : Dup u Q i k i2 k2 := ⟨hlt, hi2, .inr ⟨rfl, rfl⟩, hk, hk2, heq⟩
  have down : ∀ {j l a b}, Dup u Q j l a b → Dup u P j l a b ∨ (j = i ∧ l = k ∧ a = i2 ∧ b = k2) := by
    intro j l a b hd
    rcases hd.pair with hp | ⟨rfl, rfl⟩
    · exact .inl ⟨hd.lt, hd.ng, hp, hd.hl, hd.hk, hd.eq⟩
    · obtain ⟨e1, e2⟩ := hc.single j hi a hi2 (by omega) l hd.hl k hk b hd.hk k2 hk2 hd.eq heq
      exact .inr ⟨rfl, e1, rfl, e2⟩
  have no1 : ∀ j l, ¬ Dup u P j l i k := fun j l hd => (up hd).no_chain hc new
  have no2 : ∀ j l, ¬ Dup u P j l i2 k2 := by
    intro j l hd
    obtain ⟨rfl, rfl⟩ := (up hd).unique hc new
    exact hnew hd.pair
  have o1 := h.own i k hi hk no1
  have o2 := h.own i2 k2 hi2 hk2 no2
  have hoff := off_le u hlt
  have hm : mergeFaces m i i2 k k2 = { m with
      c2f := wr2 m.c2f k2 i2 (off u i + k : Nat)
      f2c := wr2 (wr2 m.f2c 0 (off u i2 + k2) (-(i2 : Int))) 1 (off u i + k) i2 } := by
    unfold mergeFaces
    simp only [o1.1, o2.1, Int.toNat_natCast, o2.2]
    rw [if_pos (by push_cast; omega)]
  rw [hm]
  refine ⟨h.f2v, ?_, ?_, ?_, ?_⟩
  · intro j l a b hd
    simp only []
    rcases down hd with hp | ⟨rfl, rfl, rfl, rfl⟩
    · have hab : ¬ (b = k2 ∧ a = i2) := by
        rintro ⟨rfl, rfl⟩; exact no2 j l hp
      have hjl : ¬ (j = i ∧ l = k) := by
        rintro ⟨rfl, rfl⟩
        obtain ⟨rfl, rfl⟩ := (up hp).unique_right hc new
        exact hab ⟨rfl, rfl⟩
      obtain ⟨d1, d2, d3⟩ := h.dup j l a b hp
      refine ⟨?_, ?_, ?_⟩
      · rw [wr2_other _ _ hab, d1]
      · rw [wr2_other _ _ (by omega), wr2_other _ _ ?_, d2]
        rintro ⟨_, e⟩
        obtain ⟨rfl, rfl⟩ := off_inj u hp.hk hk2 e
        exact hab ⟨rfl, rfl⟩
      · rw [wr2_other _ _ ?_, wr2_other _ _ (by omega), d3]
        rintro ⟨_, e⟩
        exact hjl (off_inj u hp.hl hk e)
    · refine ⟨wr2_same _ _ _ _, ?_, wr2_same _ _ _ _⟩
      rw [wr2_other _ _ (by omega), wr2_same]
  · intro a b ha hb hn
    simp only []
    have hab : ¬ (b = k2 ∧ a = i2) := by
      rintro ⟨rfl, rfl⟩; exact hn i k new
    obtain ⟨e1, e2⟩ := h.own a b ha hb (fun j l hd => hn j l (up hd))
    refine ⟨?_, ?_⟩
    · rw [wr2_other _ _ hab, e1]
    · rw [wr2_other _ _ (by omega), wr2_other _ _ ?_, e2]
      rintro ⟨_, e⟩
      obtain ⟨rfl, rfl⟩ := off_inj u hb hk2 e
      exact hab ⟨rfl, rfl⟩
  · intro j l hj hl hn
    simp only []
    rw [wr2_other _ _ ?_, wr2_other _ _ (by omega)]
    · exact h.single j l hj hl (fun a b hd => hn a b (up hd))
    · rintro ⟨_, e⟩
      obtain ⟨rfl, rfl⟩ := off_inj u hl hk e
      exact hn i2 k2 new
  · intro f hf
    simp only []
    have := off_le u hi2
    rw [wr2_other _ _ (by omega), wr2_other _ _ (by omega), h.rest f hf]

/-- The pairs processed when `n` cells and `d` neighbours of cell `n` are done. -/
def Pairs (u : UG) (n d : Nat) (a b : Nat) : Prop :=
  (a < n ∧ ∃ e < u.nnb a, (u.nb a e).natAbs = b) ∨ (a = n ∧ ∃ e < d, (u.nb a e).natAbs = b)

theorem removeStep_ok {u : UG} (hc : Conforming u) {n d : Nat} (hn : n < u.nl) (hd : d < u.nnb n) {m : Maps}
    (h : MergeInv u (Pairs u n d) m) :
    ∃ m', removeStep u n d m = .ok m' ∧ MergeInv u (Pairs u n (d + 1)) m' := by
  have hng : n < u.ng := Nat.lt_of_lt_of_le hn hc.owned
  obtain ⟨hr, hne⟩ := hc.range n hn d hd
  unfold removeStep
  simp only []
  by_cases hle : (u.nb n d).natAbs ≤ n
  · rw [if_pos hle]
    refine ⟨m, rfl, h.congr ?_⟩
    intro j l i k
    constructor
    · intro hh
      refine ⟨hh.lt, hh.ng, ?_, hh.hl, hh.hk, hh.eq⟩
      rcases hh.pair with hp | ⟨e, c, hc', hp⟩
      · exact .inl hp
      · exact .inr ⟨e, c, by omega, hp⟩
    · intro hh
      refine ⟨hh.lt, hh.ng, ?_, hh.hl, hh.hk, hh.eq⟩
      rcases hh.pair with hp | ⟨e, c, hc', hp⟩
      · exact .inl hp
      · refine .inr ⟨e, c, ?_, hp⟩
        by_contra hcc
        have : c = d := by omega
        subst this; subst e
        have := hh.lt
        omega
  · rw [if_neg hle]
    obtain ⟨k, k2, hk, hk2, heq⟩ := hc.sound n hn d hd
    rw [commonFace_eq hc (h.good hc) hng hk hr hk2 (by omega) heq]
    refine ⟨_, rfl, (h.merge hc hr (by omega) hk hk2 heq ?_).congr ?_⟩
    · rintro (⟨h1, _⟩ | ⟨_, e, he, h2⟩)
      · omega
      · have := hc.once n hn e (by omega) d hd h2
        omega
    · intro j l i k
      have : (Pairs u n d j i ∨ (j = n ∧ i = (u.nb n d).natAbs)) ↔ Pairs u n (d + 1) j i := by
        unfold Pairs
        constructor
        · rintro ((hp | ⟨e, c, hc', hp⟩) | ⟨rfl, rfl⟩)
          · exact .inl hp
          · exact .inr ⟨e, c, by omega, hp⟩
          · exact .inr ⟨rfl, d, by omega, rfl⟩
        · rintro (hp | ⟨e, c, hc', hp⟩)
          · exact .inl (.inl hp)
          · rcases Nat.lt_succ_iff_lt_or_eq.1 hc' with h' | h'
            · exact .inl (.inr ⟨e, c, h', hp⟩)
            · subst h'; subst e; exact .inr ⟨rfl, hp.symm⟩
      exact ⟨fun hh => ⟨hh.lt, hh.ng, this.1 hh.pair, hh.hl, hh.hk, hh.eq⟩,
        fun hh => ⟨hh.lt, hh.ng, this.2 hh.pair, hh.hl, hh.hk, hh.eq⟩⟩

/-- All pairs: one of the cells, hence the lower one, is owned. -/
def Owned (u : UG) (a _b : Nat) : Prop := a < u.nl

/-- RemoveDuplicateFaces succeeds on a conforming mesh. -/
theorem removeDuplicates_ok {u : UG} (hc : Conforming u) :
    ∃ m, removeDuplicates u (setupMaps u) = .ok m ∧ MergeInv u (Owned u) m := by
  have h : ∃ m, removeDuplicates u (setupMaps u) = .ok m ∧ MergeInv u (Pairs u u.nl 0) m := by
    unfold removeDuplicates
    refine forN_invariant u.nl _ _
      (fun n (r : Res Maps) => ∃ m, r = .ok m ∧ MergeInv u (Pairs u n 0) m) ?_ ?_
    · have hs := setupMaps_spec u
      refine ⟨_, rfl, rfl, ?_, ?_, ?_, ?_⟩
      · intro j l i k hd
        rcases hd.pair with ⟨h, _⟩ | ⟨_, e, h, _⟩ <;> omega
      · intro i k hi hk _
        exact ⟨hs.c2f i k ⟨hk, .inl hi⟩, hs.f2c i k ⟨hk, .inl hi⟩⟩
      · intro j l _ _ _
        exact hs.side _
      · intro f hf
        exact hs.rest f hf
    · intro n r hn hr
      have := forN_invariant (u.nnb n) (fun d (r : Res Maps) => r.bind (removeStep u n d)) r
        (fun d (r : Res Maps) => ∃ m, r = .ok m ∧ MergeInv u (Pairs u n d) m) hr (by
          rintro d r hd ⟨m, rfl, hm⟩
          exact removeStep_ok hc hn hd hm)
      obtain ⟨m, e, hm⟩ := this
      refine ⟨m, e, hm.congr ?_⟩
      intro j l i k
      have : Pairs u n (u.nnb n) j i ↔ Pairs u (n + 1) 0 j i := by
        unfold Pairs
        constructor
        · rintro (⟨h1, h2⟩ | ⟨rfl, h2⟩)
          · exact .inl ⟨by omega, h2⟩
          · exact .inl ⟨by omega, h2⟩
        · rintro (⟨h1, h2⟩ | ⟨_, e, h2, _⟩)
          · by_cases hj : j = n
            · subst hj; exact .inr ⟨rfl, h2⟩
            · exact .inl ⟨by omega, h2⟩
          · omega
      exact ⟨fun hh => ⟨hh.lt, hh.ng, this.1 hh.pair, hh.hl, hh.hk, hh.eq⟩,
        fun hh => ⟨hh.lt, hh.ng, this.2 hh.pair, hh.hl, hh.hk, hh.eq⟩⟩
  obtain ⟨m, e, hm⟩ := h
  refine ⟨m, e, hm.congr ?_⟩
  intro j l i k
  constructor
  · intro hh
    refine ⟨hh.lt, hh.ng, ?_, hh.hl, hh.hk, hh.eq⟩
    rcases hh.pair with ⟨h, _⟩ | ⟨_, e, h, _⟩
    · exact h
    · omega
  · intro hh
    refine ⟨hh.lt, hh.ng, .inl ⟨hh.pair, ?_⟩, hh.hl, hh.hk, hh.eq⟩
    have hlt := hh.lt
    exact hc.complete j hh.pair i hh.ng (by omega) ⟨l, k, hh.hl, hh.hk, hh.eq⟩

end TDy.Custom.Proofs
