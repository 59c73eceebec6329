import Verif.Proofs.MeshTraverse

/-!
# Ordering the columns around a vertex
-/

namespace TDy.Traverse.Proofs

open TDy.Traverse TDy.Traverse.Spec

variable {m : TMesh}

theorem antiClockwise_ok (v : Nat) {order : List Nat} (h : 2 ≤ order.length) :
    ∃ out, antiClockwise m v order = .ok out ∧ (out = order ∨ out = order.reverse) := by
  match order, h with
  | [], h => simp at h
  | [_], h => simp at h
  | c :: d :: r, _ =>
    refine ⟨_, rfl, ?_⟩
    by_cases hc : antiClock (m.coord v) (m.cellCen c) (m.faceCen (sharedFace m v c d)) = true
    · left; rw [if_pos hc]
    · right; rw [if_neg hc]

theorem alignLevels_map {cells : List Nat} {β : Nat → Nat} : ∀ (as : List Nat),
    (∀ a ∈ as, β a ∈ cells ∧ ∀ b ∈ cells, Neighbours m a b → b = β a) →
    (∀ a ∈ as, Neighbours m a (β a)) → alignLevels m cells as = .ok (as.map β)
  | [], _, _ => rfl
  | a :: as, h, hn => by
    obtain ⟨h1, h2⟩ := h a (by simp)
    have hf : cells.find? (fun b => areNeighbors m a b) = some (β a) := by
      cases hf : cells.find? (fun b => areNeighbors m a b) with
      | none =>
        rw [List.find?_eq_none] at hf
        exact absurd ((neighbours_iff _ _).2 (hn a (by simp))) (hf _ h1)
      | some b =>
        rw [h2 b (List.mem_of_find?_eq_some hf) ((neighbours_iff _ _).1 (List.find?_some hf))]
    have ih := alignLevels_map as (fun a ha => h a (List.mem_cons_of_mem _ ha))
      (fun a ha => hn a (List.mem_cons_of_mem _ ha))
    simp [alignLevels, hf, ih, Out.bind]

/-- The ends of a chain are the members with fewer than two neighbours. -/
theorem chain_ends {l : List Nat} (h : Chain m l) {i c : Nat} (hc : l[i]? = some c) :
    (if i = 0 then 1 else 0) + (if i + 1 = l.length then 1 else 0) + deg m l c = 2 := by
  obtain ⟨hi, hg⟩ := List.getElem?_eq_some_iff.1 hc
  have e : l = l.take i ++ c :: l.drop (i + 1) := by rw [← hg]; simp
  have hd : deg m l c = (if l.take i = [] then 0 else 1) + (if l.drop (i + 1) = [] then 0 else 1) := by
    have h2 : Chain m (l.take i ++ c :: l.drop (i + 1)) := by rw [← e]; exact h
    have := deg_chain h2
    rw [← e] at this
    exact this
  rw [hd]
  have h1 : l.take i = [] ↔ i = 0 := by
    rw [List.take_eq_nil_iff]
    constructor
    · rintro (h | h)
      · exact h
      · rw [h] at hi; simp at hi
    · exact Or.inl
  have h2 : l.drop (i + 1) = [] ↔ i + 1 = l.length := by
    rw [List.drop_eq_nil_iff]; omega
  rw [if_congr h1 rfl rfl, if_congr h2 rfl rfl]
  split_ifs <;> rfl

theorem ended_of_chain {v : Nat} {l l' : List Nat} (h : Ended m v l) (h' : Chain m l')
    (hp : l'.Perm l) : Ended m v l' := by
  refine ⟨h', ?_⟩
  intro i c hc
  have hmem : c ∈ l := hp.mem_iff.1 (List.mem_of_getElem? hc)
  obtain ⟨j, hj⟩ := List.mem_iff_getElem?.1 hmem
  have e1 := chain_ends h' hc
  have e2 := chain_ends h.toChain hj
  have e3 := h.ends j c hj
  rw [deg_perm hp] at e1
  omega

/-- Ordering one level. -/
theorem level_ordered {v : Nat} {l cells : List Nat} (hn : 2 ≤ l.length) (hp : cells.Perm l) :
    (Ring m l → ∃ o out, circularOrder m cells = .ok o ∧ antiClockwise m v o = .ok out ∧
      out.Perm l ∧ Ring m out) ∧
    (Ended m v l → ∃ o out, circularOrder m cells = .ok o ∧ antiClockwise m v o = .ok out ∧
      out.Perm l ∧ Ended m v out) := by
  constructor
  · intro h
    obtain ⟨o, h1, h2, h3⟩ := circular_ring h hp
    obtain ⟨out, g1, g2⟩ := antiClockwise_ok (m := m) v (order := o)
      (by rw [(h2.trans hp).length_eq]; exact hn)
    refine ⟨o, out, h1, g1, ?_⟩
    rcases g2 with rfl | rfl
    · exact ⟨h2.trans hp, h3⟩
    · exact ⟨(List.reverse_perm _).trans (h2.trans hp), ring_reverse h3⟩
  · intro h
    obtain ⟨o, h1, h2, h3⟩ := circular_chain h.toChain hp
    obtain ⟨out, g1, g2⟩ := antiClockwise_ok (m := m) v (order := o)
      (by rw [(h2.trans hp).length_eq]; exact hn)
    refine ⟨o, out, h1, g1, ?_⟩
    rcases g2 with rfl | rfl
    · exact ⟨h2.trans hp, ended_of_chain h h3 (h2.trans hp)⟩
    · have hq := (List.reverse_perm o).trans (h2.trans hp)
      exact ⟨hq, ended_of_chain h (chain_reverse h3) hq⟩

/-- The first stage of `DetermineUpwindFacesForSubcell_PlanarVerticalFaces`. -/
noncomputable def ordered (m : TMesh) (v : Nat) (A B : List Nat) : Out (List Nat × List Nat) :=
  if A.length > 1 then rearrange m v A B
  else if B.length > 1 then rearrange m v A B
  else .ok (A, B)

theorem nil_of_perm {l l' : List Nat} (h : l.Perm l') : l = [] ↔ l' = [] := by
  constructor
  · rintro rfl; exact List.nil_perm.1 h
  · rintro rfl; exact List.perm_nil.1 h

/-- Members of two levels that stand on each other. -/
theorem partner {A B : List Nat} (hA : A.Nodup) (hl : A.length = B.length)
    (hs : ∀ i j c d : Nat, A[i]? = some c → B[j]? = some d → (Neighbours m c d ↔ i = j)) :
    ∃ β : Nat → Nat, A.map β = B ∧ (∀ a ∈ A, Neighbours m a (β a)) ∧
      ∀ a ∈ A, ∀ b ∈ B, Neighbours m a b → b = β a := by
  have hidx : ∀ a ∈ A, ∃ i, ∃ (hi : i < A.length), A[i] = a ∧ A.idxOf a = i := by
    intro a ha
    exact ⟨A.idxOf a, List.idxOf_lt_length_iff.2 ha, List.getElem_idxOf _, rfl⟩
  refine ⟨fun a => B.getD (A.idxOf a) 0, ?_, ?_, ?_⟩
  · apply List.ext_getElem
    · simpa using hl
    · intro i h1 h2
      have hi : i < A.length := by simpa using h1
      simp [hA.idxOf_getElem i hi, List.getD_eq_getElem?_getD, List.getElem?_eq_getElem h2]
  · intro a ha
    obtain ⟨i, hi, h1, h2⟩ := hidx a ha
    have hb : i < B.length := hl ▸ hi
    refine (hs i i a _ (by rw [List.getElem?_eq_getElem hi, h1]) ?_).2 rfl
    simp [h2, List.getD_eq_getElem?_getD, List.getElem?_eq_getElem hb]
  · intro a ha b hb hn
    obtain ⟨i, hi, h1, h2⟩ := hidx a ha
    obtain ⟨j, hj⟩ := List.mem_iff_getElem?.1 hb
    have := (hs i j a b (by rw [List.getElem?_eq_getElem hi, h1]) hj).1 hn
    subst this
    simp [h2, List.getD_eq_getElem?_getD, hj]

theorem map_getElem? {A : List Nat} {β : Nat → Nat} {i d : Nat} (h : (A.map β)[i]? = some d) :
    ∃ c, A[i]? = some c ∧ d = β c := by
  rw [List.getElem?_map] at h
  cases hc : A[i]? with
  | none => rw [hc] at h; simp at h
  | some c => rw [hc] at h; simp at h; exact ⟨c, rfl, h.symm⟩

/-- The order of the columns carried over to the other level. -/
theorem carry {A A' : List Nat} {β : Nat → Nat} (hA : A.Nodup) (hp : A'.Perm A)
    (hB : (A.map β).Nodup) (R : Nat → Nat → Prop)
    (hR : ∀ i j c d : Nat, i < j → A[i]? = some c → A[j]? = some d → (R c d ↔ R (β c) (β d)))
    (hsym : ∀ c d, R c d ↔ R d c) :
    (A'.map β).Nodup ∧ ∀ i j c d : Nat, i < j → A'[i]? = some c → A'[j]? = some d →
      (R (β c) (β d) ↔ R c d) := by
  refine ⟨(hp.map β).nodup_iff.2 hB, ?_⟩
  intro i j c d hij hc hd
  obtain ⟨k, hk⟩ := List.mem_iff_getElem?.1 (hp.mem_iff.1 (List.mem_of_getElem? hc))
  obtain ⟨l, hl⟩ := List.mem_iff_getElem?.1 (hp.mem_iff.1 (List.mem_of_getElem? hd))
  rcases Nat.lt_trichotomy k l with h | h | h
  · exact (hR k l c d h hk hl).symm
  · subst h
    have hcd : c = d := by rw [hk] at hl; exact Option.some.inj hl
    subst hcd
    have hn : A'.Nodup := hp.nodup_iff.2 hA
    have := (List.getElem?_inj (List.getElem?_eq_some_iff.1 hc).1 hn).1 (hc.trans hd.symm)
    omega
  · rw [hsym, hsym (c := c)]
    exact (hR l k d c h hl hk).symm

theorem ordered_layered {v : Nat} {A B Ain Bin : List Nat} (ha : Around m v)
    (h : Layered m v A B) (hA : Ain.Perm A) (hB : Bin.Perm B) :
    ∃ A' B', ordered m v Ain Bin = .ok (A', B') ∧ Layered m v A' B' := by
  have hnd : (A ++ B).Nodup := h.cells.nodup_iff.2 ha.cells_nodup
  have hAn : A.Nodup := (List.nodup_append.1 hnd).1
  have hBn : B.Nodup := (List.nodup_append.1 hnd).2.1
  have hlen : A.length + B.length = (m.vCells v).length := by
    rw [← List.length_append, h.cells.length_eq]
  have hsev := h.several
  by_cases hA0 : A = []
  · -- only cells below
    subst hA0
    have hAin : Ain = [] := List.perm_nil.1 hA
    subst hAin
    have hB2 : 2 ≤ B.length := by simp at hlen; omega
    have hBin : Bin.length > 1 := by rw [hB.length_eq]; omega
    have hBne : B ≠ [] := by rintro rfl; simp at hB2
    unfold ordered
    rw [if_neg (by simp), if_pos hBin]
    have fin : ∀ o out, circularOrder m Bin = .ok o → antiClockwise m v o = .ok out →
        rearrange m v [] Bin = .ok ([], out) := by
      intro o out h1 h2
      unfold rearrange
      rw [if_neg (by simp), h1]
      simp only [Out.bind, h2]
    have hone : ∀ out : List Nat, out.Perm B →
        ((([] : List Nat) = [] ∨ Ring m []) ∧ (out = [] ∨ Ring m out) ∧
          (∀ x ∈ m.vBnd v, ¬ Upright m v x) ∨
        (([] : List Nat) = [] ∨ Ended m v []) ∧ (out = [] ∨ Ended m v out)) →
        Layered m v [] out := by
      intro out hp hs
      exact ⟨(hp.append_left []).trans h.cells, hsev, hs, fun e => absurd rfl e,
        fun _ => h.oneLevel (Or.inl rfl), fun e => absurd rfl e⟩
    rcases h.sides with ⟨_, hr, hx⟩ | ⟨_, hr⟩
    · obtain ⟨o, out, g1, g2, g3, g4⟩ := (level_ordered (v := v) hB2 hB).1 (hr.resolve_left hBne)
      exact ⟨[], out, fin o out g1 g2, hone out g3 (Or.inl ⟨Or.inl rfl, Or.inr g4, hx⟩)⟩
    · obtain ⟨o, out, g1, g2, g3, g4⟩ := (level_ordered (v := v) hB2 hB).2 (hr.resolve_left hBne)
      exact ⟨[], out, fin o out g1 g2, hone out g3 (Or.inr ⟨Or.inl rfl, Or.inr g4⟩)⟩
  by_cases hB0 : B = []
  · -- only cells above
    subst hB0
    have hBin : Bin = [] := List.perm_nil.1 hB
    subst hBin
    have hA2 : 2 ≤ A.length := by simp at hlen; omega
    have hAin : Ain.length > 1 := by rw [hA.length_eq]; omega
    unfold ordered
    rw [if_pos hAin]
    have fin : ∀ o out, circularOrder m Ain = .ok o → antiClockwise m v o = .ok out →
        rearrange m v Ain [] = .ok (out, []) := by
      intro o out h1 h2
      unfold rearrange
      rw [if_pos (by omega), h1]
      simp only [Out.bind, h2]
      rw [if_neg (by simp)]
    have hone : ∀ out : List Nat, out.Perm A →
        ((out = [] ∨ Ring m out) ∧ (([] : List Nat) = [] ∨ Ring m []) ∧
          (∀ x ∈ m.vBnd v, ¬ Upright m v x) ∨
        (out = [] ∨ Ended m v out) ∧ (([] : List Nat) = [] ∨ Ended m v [])) →
        Layered m v out [] := by
      intro out hp hs
      exact ⟨(hp.append_right []).trans h.cells, hsev, hs, fun _ e => absurd rfl e,
        fun _ => h.oneLevel (Or.inr rfl), fun _ e => absurd rfl e⟩
    rcases h.sides with ⟨hr, _, hx⟩ | ⟨hr, _⟩
    · obtain ⟨o, out, g1, g2, g3, g4⟩ := (level_ordered (v := v) hA2 hA).1 (hr.resolve_left hA0)
      exact ⟨out, [], fin o out g1 g2, hone out g3 (Or.inl ⟨Or.inr g4, Or.inl rfl, hx⟩)⟩
    · obtain ⟨o, out, g1, g2, g3, g4⟩ := (level_ordered (v := v) hA2 hA).2 (hr.resolve_left hA0)
      exact ⟨out, [], fin o out g1 g2, hone out g3 (Or.inr ⟨Or.inr g4, Or.inl rfl⟩)⟩
  -- two levels
  obtain ⟨hl, hst⟩ := h.stacked hA0 hB0
  by_cases hA2 : A.length > 1
  · have hAin : Ain.length > 1 := by rw [hA.length_eq]; exact hA2
    have hBin : Bin.length > 0 := by rw [hB.length_eq]; omega
    obtain ⟨β, b1, b2, b3⟩ := partner (m := m) hAn hl hst
    unfold ordered
    rw [if_pos hAin]
    have fin : ∀ o out, circularOrder m Ain = .ok o → antiClockwise m v o = .ok out →
        out.Perm A → rearrange m v Ain Bin = .ok (out, out.map β) := by
      intro o out h1 h2 hp
      have ht : Bin.take Ain.length = Bin := by
        rw [List.take_of_length_le]; rw [hA.length_eq, hB.length_eq]; omega
      have hd : Bin.drop Ain.length = [] := by
        rw [List.drop_eq_nil_iff]; rw [hA.length_eq, hB.length_eq]; omega
      unfold rearrange
      rw [if_pos (by omega), h1]
      simp only [Out.bind, h2]
      rw [if_pos hBin, ht, hd]
      rw [alignLevels_map (β := β) out]
      · simp
      · intro a ha
        have haA := hp.mem_iff.1 ha
        refine ⟨hB.mem_iff.2 (by rw [← b1]; exact List.mem_map_of_mem haA), ?_⟩
        intro b hb hn
        exact b3 a haA b (hB.mem_iff.1 hb) hn
      · intro a ha; exact b2 a (hp.mem_iff.1 ha)
    have hnb : (A.map β).Nodup := by rw [b1]; exact hBn
    -- neighbours above are neighbours below
    have hR : ∀ i j c d : Nat, i < j → A[i]? = some c → A[j]? = some d →
        (Neighbours m c d ↔ Neighbours m (β c) (β d)) := by
      intro i j c d hij hc hd
      have hc' : B[i]? = some (β c) := by rw [← b1, List.getElem?_map, hc]; rfl
      have hd' : B[j]? = some (β d) := by rw [← b1, List.getElem?_map, hd]; rfl
      rcases h.sides with ⟨hr, hr', _⟩ | ⟨hr, hr'⟩
      · rw [(hr.resolve_left hA0).next i j c d hij hc hd,
          (hr'.resolve_left hB0).next i j _ _ hij hc' hd', hl]
      · rw [(hr.resolve_left hA0).next i j c d hij hc hd,
          (hr'.resolve_left hB0).next i j _ _ hij hc' hd']
    have hlay : ∀ out : List Nat, out.Perm A →
        ((out = [] ∨ Ring m out) ∧ (out.map β = [] ∨ Ring m (out.map β)) ∧
          (∀ x ∈ m.vBnd v, ¬ Upright m v x) ∨
        (out = [] ∨ Ended m v out) ∧ (out.map β = [] ∨ Ended m v (out.map β))) →
        Layered m v out (out.map β) := by
      intro out hp hs
      have hpB : (out.map β).Perm B := by rw [← b1]; exact hp.map β
      have hne : out ≠ [] := fun e => hA0 ((nil_of_perm hp).1 e)
      have hneB : out.map β ≠ [] := fun e => hB0 ((nil_of_perm hpB).1 e)
      refine ⟨(hp.append hpB).trans h.cells, hsev, hs, ?_, ?_, fun _ _ => h.twoLevels hA0 hB0⟩
      · intro _ _
        refine ⟨by simp, ?_⟩
        intro i j c d hc hd
        obtain ⟨e, he, rfl⟩ := map_getElem? hd
        have hcA := hp.mem_iff.1 (List.mem_of_getElem? hc)
        have heA := hp.mem_iff.1 (List.mem_of_getElem? he)
        constructor
        · intro hn
          have h1 : β e = β c :=
            b3 c hcA (β e) (by rw [← b1]; exact List.mem_map_of_mem heA) hn
          have h2 : e = c := List.inj_on_of_nodup_map hnb heA hcA h1
          subst h2
          exact (List.getElem?_inj (List.getElem?_eq_some_iff.1 hc).1
            (hp.nodup_iff.2 hAn)).1 (hc.trans he.symm)
        · rintro rfl
          rw [hc] at he
          cases he
          exact b2 c hcA
      · rintro (e | e)
        · exact absurd e hne
        · exact absurd e hneB
    have hcar : ∀ out : List Nat, out.Perm A → (out.map β).Nodup ∧
        ∀ i j c d : Nat, i < j → out[i]? = some c → out[j]? = some d →
          (Neighbours m (β c) (β d) ↔ Neighbours m c d) := fun out hp =>
      carry hAn hp hnb (Neighbours m) hR neighbours_comm
    rcases h.sides with ⟨hr, hr', hx⟩ | ⟨hr, hr'⟩
    · obtain ⟨o, out, g1, g2, g3, g4⟩ := (level_ordered (v := v) (by omega) hA).1
        (hr.resolve_left hA0)
      refine ⟨out, out.map β, fin o out g1 g2 g3, hlay out g3 (Or.inl ⟨Or.inr g4, Or.inr ?_, hx⟩)⟩
      obtain ⟨c1, c2⟩ := hcar out g3
      refine ⟨by simpa using g4.three, c1, ?_⟩
      intro i j c d hij hc hd
      obtain ⟨a, ha', rfl⟩ := map_getElem? hc
      obtain ⟨b, hb', rfl⟩ := map_getElem? hd
      rw [c2 i j a b hij ha' hb', g4.next i j a b hij ha' hb', List.length_map]
    · obtain ⟨o, out, g1, g2, g3, g4⟩ := (level_ordered (v := v) (by omega) hA).2
        (hr.resolve_left hA0)
      refine ⟨out, out.map β, fin o out g1 g2 g3, hlay out g3 (Or.inr ⟨Or.inr g4, Or.inr ?_⟩)⟩
      obtain ⟨c1, c2⟩ := hcar out g3
      have hch : Chain m (out.map β) := by
        refine ⟨by simpa using g4.nonempty, c1, ?_⟩
        intro i j c d hij hc hd
        obtain ⟨a, ha', rfl⟩ := map_getElem? hc
        obtain ⟨b, hb', rfl⟩ := map_getElem? hd
        rw [c2 i j a b hij ha' hb', g4.next i j a b hij ha' hb']
      exact ended_of_chain (hr'.resolve_left hB0) hch (by rw [← b1]; exact g3.map β)
  · -- one cell above, one below
    have hA1 : A.length = 1 := by
      have := List.length_pos_of_ne_nil hA0; omega
    obtain ⟨a, rfl⟩ := List.length_eq_one_iff.1 hA1
    obtain ⟨b, rfl⟩ := List.length_eq_one_iff.1 (hl ▸ hA1)
    have h1 : Ain = [a] := List.perm_singleton.1 hA
    have h2 : Bin = [b] := List.perm_singleton.1 hB
    subst h1 h2
    exact ⟨[a], [b], by simp [ordered], h⟩

end TDy.Traverse.Proofs
