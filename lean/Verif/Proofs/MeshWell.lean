import Mathlib.Data.Finset.Card
import Mathlib.Algebra.BigOperators.Group.Finset.Sigma
import Mathlib.Algebra.Order.BigOperators.Group.Finset
import Verif.Proofs.MeshRows
import Verif.Spec.MpfaoTrans

/-!
# The numbering of the faces around a vertex, from its connections
-/

namespace TDy.Traverse.Proofs

open TDy.Traverse TDy.Traverse.Spec

variable {m : TMesh} {v : Nat}

theorem indexInList_eq {l : List Nat} {c : Nat} (h : c ∈ l) : indexInList l (c : ℤ) = l.idxOf c := by
  unfold indexInList
  have e : (l.findIdx? fun d : Nat => (d : ℤ) == (c : ℤ)) = l.findIdx? fun d => d == c := by
    congr 1
    funext d
    rw [Bool.eq_iff_iff]
    simp
  rw [e]
  have h2 : l.findIdx? (fun d => d == c) = some (l.idxOf c) := by
    rw [List.findIdx?_eq_some_iff_findIdx_eq]
    exact ⟨List.idxOf_lt_length_iff.2 h, rfl⟩
  rw [h2]
  rfl

theorem onBoundary_eq (ha : Around m v) {x : Nat} (hx : x ∈ m.vFaces v) :
    onBoundary m x = !m.faceInternal x := by
  unfold onBoundary
  cases h : m.faceInternal x with
  | true =>
    obtain ⟨c, _, d, _, _, hf⟩ := ha.internal x hx h
    rw [hf]; simp
  | false =>
    obtain ⟨c, _, k, hk, hf | hf⟩ := ha.boundary x hx h
    · rw [hf]; simp [hk]
    · rw [hf]; simp [hk]

/-- The connection of an internal face is found. -/
theorem link_spec (ha : Around m v) {l : List (ℤ × ℤ)} (hl : Conns m v l) {x c d : Nat}
    (hx : x ∈ m.vFaces v) (hf : m.faceCells x = ((c : ℤ), (d : ℤ))) (hcd : c ≠ d) :
    ∃ k p, linkOf m v l x = some k ∧ l[k]? = some p ∧ Joins m v x p ∧
      (p = (cellNo m v c, cellNo m v d) ∨ p = (cellNo m v d, cellNo m v c)) ∧
      (l.find? fun p => p == (cellNo m v c, cellNo m v d) || p == (cellNo m v d, cellNo m v c))
        = some p := by
  have sc : Side m x c := Or.inl (by rw [hf])
  have sd : Side m x d := Or.inr (by rw [hf])
  have hc := side_cell ha hx sc
  have hd := side_cell ha hx sd
  have hj : Joins m v x (cellNo m v c, cellNo m v d) := Or.inl ⟨c, d, hcd, sc, sd, rfl⟩
  obtain ⟨p0, hp0, hj0⟩ := hl.complete x hx
  set P : ℤ × ℤ → Bool :=
    fun p => p == (cellNo m v c, cellNo m v d) || p == (cellNo m v d, cellNo m v c) with hP
  have hPd : ∀ p, P p = true → p = (cellNo m v c, cellNo m v d) ∨ p = (cellNo m v d, cellNo m v c) := by
    intro p h
    rw [hP] at h
    simpa only [Bool.or_eq_true, beq_iff_eq] using h
  have hP0 : P p0 = true := by
    rcases joins_unique ha hx hj0 hj with e | e <;> rw [hP, e] <;> simp
  have hlink : linkOf m v l x = l.findIdx? P := by
    unfold linkOf findConn
    rw [hf]
    simp only
    rw [indexInList_eq hc, indexInList_eq hd]
    rfl
  have hex : ∃ y ∈ l, P y = true := ⟨p0, hp0, hP0⟩
  have hlt := List.findIdx_lt_length_of_exists hex
  refine ⟨l.findIdx P, l[l.findIdx P], ?_, List.getElem?_eq_getElem hlt, ?_, ?_, ?_⟩
  · rw [hlink, List.findIdx?_eq_some_iff_findIdx_eq]
    exact ⟨hlt, rfl⟩
  · have hPk : P (l[l.findIdx P]) = true := List.findIdx_getElem
    replace hPk := hPd _ hPk
    rcases hPk with e | e
    · rw [e]; exact hj
    · rw [e]; exact Joins.swap hj
  · have hPk : P (l[l.findIdx P]) = true := List.findIdx_getElem
    exact hPd _ hPk
  · rw [List.find?_eq_some_iff_getElem]
    refine ⟨List.findIdx_getElem, l.findIdx P, hlt, rfl, ?_⟩
    intro j hj
    simpa using List.not_of_lt_findIdx hj

theorem not_udiff_eq {l : List (ℤ × ℤ)} (h : l.Pairwise UDiff) {i j : Nat} {p q : ℤ × ℤ}
    (hi : l[i]? = some p) (hj : l[j]? = some q) (hpq : p = q ∨ p = q.swap) : i = j := by
  obtain ⟨hil, rfl⟩ := List.getElem?_eq_some_iff.1 hi
  obtain ⟨hjl, rfl⟩ := List.getElem?_eq_some_iff.1 hj
  rw [List.pairwise_iff_getElem] at h
  rcases Nat.lt_trichotomy i j with g | g | g
  · have := h i j hil hjl g
    rcases hpq with e | e
    · exact absurd e this.1
    · exact absurd e this.2
  · exact g
  · have := (h j i hjl hil g).symm
    rcases hpq with e | e
    · exact absurd e this.1
    · exact absurd e this.2

theorem joins_pair_internal (ha : Around m v) {x : Nat} {p : ℤ × ℤ} (hx : x ∈ m.vFaces v)
    (h : Joins m v x p) : isCellPair (m.vCells v).length p = m.faceInternal x := by
  rcases h with ⟨c, d, hcd, hc, hd, rfl⟩ | ⟨hi, c, hc, hp⟩
  · rw [internal_of_sides ha hx hcd hc hd]
    have l1 := cellNo_lt (side_cell ha hx hc)
    have l2 := cellNo_lt (side_cell ha hx hd)
    simp [isCellPair, l1, l2]
  · rw [hi]
    have l1 := faceNo_ge (m := m) (v := v) x
    rcases hp with rfl | rfl
    · simp [isCellPair]; intro _; exact l1
    · simp [isCellPair]; intro h; omega

/-- There are as many connections between cells as internal faces. -/
theorem pairs_length (ha : Around m v) {l a b : List (ℤ × ℤ)} (hl : Conns m v l) (hab : l = a ++ b)
    (h1 : ∀ p ∈ a, isCellPair (m.vCells v).length p = true)
    (h2 : ∀ p ∈ b, isCellPair (m.vCells v).length p = false) :
    a.length = ((m.vFaces v).filter fun x => m.faceInternal x).length := by
  classical
  have memf : ∀ x, x ∈ (m.vFaces v).filter (fun x => m.faceInternal x) ↔
      x ∈ m.vFaces v ∧ m.faceInternal x = true := fun x => List.mem_filter
  apply le_antisymm
  · have hch : ∀ p : ℤ × ℤ, ∃ x, p ∈ a → x ∈ m.vFaces v ∧ Joins m v x p := by
      intro p
      by_cases h : p ∈ a
      · obtain ⟨x, hx, hj⟩ := hl.sound p (by rw [hab]; exact List.mem_append_left _ h)
        exact ⟨x, fun _ => ⟨hx, hj⟩⟩
      · exact ⟨0, fun h' => absurd h' h⟩
    choose φ hφ using hch
    have hpa : a.Pairwise UDiff := by
      have := hl.once
      rw [hab] at this
      exact (List.pairwise_append.1 this).1
    have hn : (a.map φ).Nodup := by
      rw [List.Nodup, List.pairwise_map]
      refine hpa.imp_of_mem ?_
      intro p q hp' hq' hd e
      obtain ⟨h1, h2⟩ := hφ p hp'
      obtain ⟨h3, h4⟩ := hφ q hq'
      rw [← e] at h4
      rcases joins_unique ha h1 h2 h4 with h | h
      · exact hd.1 h
      · exact hd.2 h
    have hsub : a.map φ ⊆ (m.vFaces v).filter fun x => m.faceInternal x := by
      intro x hx
      obtain ⟨p, hp', rfl⟩ := List.mem_map.1 hx
      obtain ⟨g1, g2⟩ := hφ p hp'
      exact (memf _).2 ⟨g1, by rw [← joins_pair_internal ha g1 g2]; exact h1 p hp'⟩
    have := (List.subperm_of_subset hn hsub).length_le
    simpa using this
  · have hch : ∀ x : Nat, ∃ p, x ∈ (m.vFaces v).filter (fun x => m.faceInternal x) →
        p ∈ a ∧ Joins m v x p := by
      intro x
      by_cases h : x ∈ (m.vFaces v).filter (fun x => m.faceInternal x)
      · obtain ⟨hx, hi⟩ := (memf x).1 h
        obtain ⟨p, hp, hj⟩ := hl.complete x hx
        have hpi := joins_pair_internal ha hx hj
        rw [hi] at hpi
        rw [hab] at hp
        rcases List.mem_append.1 hp with g | g
        · exact ⟨p, fun _ => ⟨g, hj⟩⟩
        · rw [h2 p g] at hpi; cases hpi
      · exact ⟨(0, 0), fun h' => absurd h' h⟩
    choose ψ hψ using hch
    have hn : (((m.vFaces v).filter fun x => m.faceInternal x).map ψ).Nodup := by
      refine List.Nodup.map_on ?_ (ha.faces_nodup.filter _)
      intro x hx y hy e
      have g1 := (hψ x hx).2
      have g2 := (hψ y hy).2
      rw [← e] at g2
      exact joins_inj ha ((memf x).1 hx).1 ((memf y).1 hy).1 g1 g2
    have hsub : ((m.vFaces v).filter fun x => m.faceInternal x).map ψ ⊆ a := by
      intro p hp
      obtain ⟨x, hx, rfl⟩ := List.mem_map.1 hp
      exact (hψ x hx).1
    have := (List.subperm_of_subset hn hsub).length_le
    simpa using this

theorem cell_index {i : Nat} (h : i < (m.vCells v).length) :
    ∃ c, (m.vCells v)[i]? = some c ∧ c ∈ m.vCells v :=
  ⟨_, List.getElem?_eq_getElem h, List.getElem_mem h⟩

theorem index_unique (ha : Around m v) {i j c : Nat} (hi : (m.vCells v)[i]? = some c)
    (hj : (m.vCells v)[j]? = some c) : i = j :=
  (List.getElem?_inj (List.getElem?_eq_some_iff.1 hi).1 ha.cells_nodup).1 (hi.trans hj.symm)

/-- The up flag of an internal face: one of the two cells is up, the other down. -/
theorem up_spec (ha : Around m v) {l : List (ℤ × ℤ)} (hl : Conns m v l) {x c d : Nat}
    (hx : x ∈ m.vFaces v) (hf : m.faceCells x = ((c : ℤ), (d : ℤ))) (hcd : c ≠ d) :
    (∀ i a, (m.vCells v)[i]? = some a → upOf m v l i x = decide (a = c)) ∨
    (∀ i a, (m.vCells v)[i]? = some a → upOf m v l i x = decide (a = d)) := by
  have sc : Side m x c := Or.inl (by rw [hf])
  have sd : Side m x d := Or.inr (by rw [hf])
  have hint := internal_of_sides ha hx hcd sc sd
  have hc := side_cell ha hx sc
  have hd := side_cell ha hx sd
  obtain ⟨k, p, _, _, _, hp, hfind⟩ := link_spec ha hl hx hf hcd
  have hval : ∀ i a : Nat, (m.vCells v)[i]? = some a → upOf m v l i x =
      if p == (cellNo m v c, cellNo m v d) then ((a : ℤ) == (c : ℤ)) else ((a : ℤ) == (d : ℤ)) := by
    intro i a hi
    unfold upOf
    rw [onBoundary_eq ha hx, hint]
    simp only [Bool.not_true, Bool.false_eq_true, if_false]
    rw [hf]
    simp only
    rw [indexInList_eq hc, indexInList_eq hd]
    have : (m.vCells v).getD i 0 = a := by
      rw [List.getD_eq_getElem?_getD, hi]; rfl
    rw [this]
    unfold cellNo at hfind ⊢
    rw [hfind]
  by_cases e : p = (cellNo m v c, cellNo m v d)
  · left
    intro i a hi
    rw [hval i a hi, if_pos (by simpa using e), Bool.eq_iff_iff]
    simp
  · right
    intro i a hi
    rw [hval i a hi, if_neg (by simpa using e), Bool.eq_iff_iff]
    simp

theorem bnd_perm (ha : Around m v) :
    (m.vBnd v).Perm ((m.vFaces v).filter fun x => !m.faceInternal x) := by
  apply (List.perm_ext_iff_of_nodup ha.bnd_nodup (ha.faces_nodup.filter _)).2
  intro x
  rw [ha.bnd, List.mem_filter]
  simp

theorem faces_length (ha : Around m v) : (m.vFaces v).length
    = ((m.vFaces v).filter fun x => m.faceInternal x).length + (m.vBnd v).length := by
  rw [(bnd_perm ha).length_eq, ← List.length_append]
  exact (List.filter_append_perm _ _).length_eq.symm

theorem bnd_count (ha : Around m v) : (m.vBnd v).length =
    ∑ i ∈ Finset.range (m.vCells v).length, ∑ f ∈ Finset.range 3,
      if m.faceInternal (m.subFace v i f) then 0 else 1 := by
  classical
  have hsum : (∑ i ∈ Finset.range (m.vCells v).length, ∑ f ∈ Finset.range 3,
      if m.faceInternal (m.subFace v i f) then 0 else 1)
      = ((Finset.range (m.vCells v).length ×ˢ Finset.range 3).filter
        fun q => m.faceInternal (m.subFace v q.1 q.2) = false).card := by
    rw [Finset.card_filter, Finset.sum_product]
    refine Finset.sum_congr rfl fun i _ => Finset.sum_congr rfl fun f _ => ?_
    cases m.faceInternal (m.subFace v i f) <;> simp
  rw [hsum, ← List.toFinset_card_of_nodup ha.bnd_nodup]
  symm
  apply Finset.card_bij (fun q _ => m.subFace v q.1 q.2)
  · intro q hq
    simp only [Finset.mem_filter, Finset.mem_product, Finset.mem_range] at hq
    obtain ⟨c, hc, _⟩ := cell_index hq.1.1
    rw [List.mem_toFinset, ha.bnd]
    exact ⟨(ha.sub q.1 c q.2 hc hq.1.2).1, hq.2⟩
  · intro q hq r hr e
    simp only [Finset.mem_filter, Finset.mem_product, Finset.mem_range] at hq hr
    obtain ⟨c, hc, _⟩ := cell_index hq.1.1
    obtain ⟨d, hd, _⟩ := cell_index hr.1.1
    have h1 := ha.sub q.1 c q.2 hc hq.1.2
    have h2 := ha.sub r.1 d r.2 hd hr.1.2
    rw [← e] at h2
    have hcd := bnd_side ha ((ha.bnd _).2 ⟨h1.1, hq.2⟩) h1.2 h2.2
    subst hcd
    have hi := index_unique ha hc hd
    refine Prod.ext hi ?_
    rw [← hi] at e
    exact ha.sub_inj q.1 c q.2 r.2 hc hq.1.2 hr.1.2 e
  · intro x hx
    rw [List.mem_toFinset] at hx
    obtain ⟨hx1, hx2⟩ := (ha.bnd x).1 hx
    obtain ⟨c, hc, k, _, hf⟩ := ha.boundary x hx1 hx2
    have sc : Side m x c := by
      rcases hf with hf | hf
      · exact Or.inl (by rw [hf])
      · exact Or.inr (by rw [hf])
    obtain ⟨i, hi⟩ := List.mem_iff_getElem?.1 hc
    obtain ⟨f, hf3, hsub⟩ := ha.sub_onto i c x hi hx1 sc
    refine ⟨(i, f), ?_, hsub⟩
    simp only [Finset.mem_filter, Finset.mem_product, Finset.mem_range]
    exact ⟨⟨(List.getElem?_eq_some_iff.1 hi).1, hf3⟩, by rw [hsub]; exact hx2⟩

/-- The vertex is numbered as the transmissibilities require. -/
theorem wellFormed (ha : Around m v) {l : List (ℤ × ℤ)} (hl : Conns m v l)
    (G : Nat → Nat → Nat → ℝ) (bnd : Nat → Nat → Nat) (dir : Bool) :
    Mpfao.Spec.WellFormed (vtxOf m v l G bnd dir) := by
  have rng : ∀ i f, Mpfao.Spec.InRange (vtxOf m v l G bnd dir) i f →
      ∃ c, (m.vCells v)[i]? = some c ∧ c ∈ m.vCells v ∧ f < 3 ∧ m.subFace v i f ∈ m.vFaces v ∧
        Side m (m.subFace v i f) c := by
    rintro i f ⟨hi, hf⟩
    obtain ⟨c, hc, hm⟩ := cell_index (m := m) (v := v) hi
    obtain ⟨h1, h2⟩ := ha.sub i c f hc hf
    exact ⟨c, hc, hm, hf, h1, h2⟩
  have mk : ∀ c x, x ∈ m.vFaces v → Side m x c →
      ∃ i f, Mpfao.Spec.InRange (vtxOf m v l G bnd dir) i f ∧ (m.vCells v)[i]? = some c ∧
        m.subFace v i f = x := by
    intro c x hx hc
    obtain ⟨i, hi⟩ := List.mem_iff_getElem?.1 (side_cell ha hx hc)
    obtain ⟨f, hf, hsub⟩ := ha.sub_onto i c x hi hx hc
    exact ⟨i, f, ⟨(List.getElem?_eq_some_iff.1 hi).1, hf⟩, hi, hsub⟩
  have same : ∀ i f i' f' c, Mpfao.Spec.InRange (vtxOf m v l G bnd dir) i f →
      Mpfao.Spec.InRange (vtxOf m v l G bnd dir) i' f' → (m.vCells v)[i]? = some c →
      (m.vCells v)[i']? = some c → m.subFace v i f = m.subFace v i' f' → i = i' ∧ f = f' := by
    intro i f i' f' c hr hr' hc hc' e
    have hi := index_unique ha hc hc'
    subst hi
    exact ⟨rfl, ha.sub_inj i c f f' hc hr.2 hr'.2 e⟩
  have bonce : ∀ i f i' f', Mpfao.Spec.InRange (vtxOf m v l G bnd dir) i f →
      Mpfao.Spec.InRange (vtxOf m v l G bnd dir) i' f' → m.faceInternal (m.subFace v i f) = false →
      m.subFace v i f = m.subFace v i' f' → i = i' ∧ f = f' := by
    intro i f i' f' hr hr' hi e
    obtain ⟨c, hc, _, _, hx, hs⟩ := rng i f hr
    obtain ⟨d, hd, _, _, _, hs'⟩ := rng i' f' hr'
    rw [← e] at hs'
    have := bnd_side ha ((ha.bnd _).2 ⟨hx, hi⟩) hs hs'
    subst this
    exact same i f i' f' c hr hr' hc hd e
  have lk : ∀ x, x ∈ m.vFaces v → m.faceInternal x = true →
      ∃ k p, linkOf m v l x = some k ∧ l[k]? = some p ∧ Joins m v x p := by
    intro x hx hi
    obtain ⟨c, _, d, _, hcd, hf⟩ := ha.internal x hx hi
    obtain ⟨k, p, h1, h2, h3, _⟩ := link_spec ha hl hx hf hcd
    exact ⟨k, p, h1, h2, h3⟩
  obtain ⟨a, b, hab, h1, h2⟩ := hl.cellsFirst
  have hlen := pairs_length ha hl hab h1 h2
  refine ⟨?_, ?_, ?_, bonce, ?_, ?_, ?_, ?_, bnd_count ha, faces_length ha⟩
  · intro i f f' hr hr' e
    obtain ⟨c, hc, _⟩ := rng i f hr
    exact ha.sub_inj i c f f' hc hr.2 hr'.2 e
  · intro i f i' f' hr hr' e hup
    change m.subFace v i f = m.subFace v i' f' at e
    change upOf m v l i (m.subFace v i f) = upOf m v l i' (m.subFace v i' f') at hup
    obtain ⟨a1, ha1, _, _, hx, hs⟩ := rng i f hr
    obtain ⟨a2, ha2, _, _, _, hs'⟩ := rng i' f' hr'
    cases hint : m.faceInternal (m.subFace v i f) with
    | false => exact bonce i f i' f' hr hr' hint e
    | true =>
      obtain ⟨c, _, d, _, hcd, hf⟩ := ha.internal _ hx hint
      rw [← e] at hup hs'
      unfold Side at hs hs'
      rw [hf] at hs hs'
      simp only [Nat.cast_inj] at hs hs'
      have : a1 = a2 := by
        rcases up_spec ha hl hx hf hcd with h | h <;> rw [h i a1 ha1, h i' a2 ha2] at hup <;>
          rw [Bool.eq_iff_iff] at hup <;> simp only [decide_eq_true_eq] at hup
        · rcases hs with g | g <;> rcases hs' with g' | g'
          · rw [← g, ← g']
          · exact ((hup.1 g.symm).trans g).symm ▸ rfl
          · exact (hup.2 g'.symm).trans g'
          · rw [← g, ← g']
        · rcases hs with g | g <;> rcases hs' with g' | g'
          · rw [← g, ← g']
          · exact (hup.2 g'.symm).trans g'
          · exact ((hup.1 g.symm).trans g).symm ▸ rfl
          · rw [← g, ← g']
      subst this
      exact same i f i' f' a1 hr hr' ha1 ha2 e
  · intro i f hr hint
    change m.faceInternal (m.subFace v i f) = true at hint
    obtain ⟨a1, ha1, _, _, hx, hs⟩ := rng i f hr
    obtain ⟨c, _, d, _, hcd, hf⟩ := ha.internal _ hx hint
    have sc : Side m (m.subFace v i f) c := Or.inl (by rw [hf])
    have sd : Side m (m.subFace v i f) d := Or.inr (by rw [hf])
    unfold Side at hs
    rw [hf] at hs
    simp only [Nat.cast_inj] at hs
    obtain ⟨a2, ha2, sa2⟩ : ∃ a2, ((a1 = c ∧ a2 = d) ∨ (a1 = d ∧ a2 = c)) ∧
        Side m (m.subFace v i f) a2 := by
      rcases hs with g | g
      · exact ⟨d, Or.inl ⟨g.symm, rfl⟩, sd⟩
      · exact ⟨c, Or.inr ⟨g.symm, rfl⟩, sc⟩
    obtain ⟨i', f', hr', hi', hsub⟩ := mk a2 _ hx sa2
    refine ⟨i', f', hr', hsub, ?_⟩
    change upOf m v l i' (m.subFace v i' f') = !upOf m v l i (m.subFace v i f)
    rw [hsub]
    rcases up_spec ha hl hx hf hcd with h | h <;> rw [h i a1 ha1, h i' a2 hi'] <;>
      rcases ha2 with ⟨e1, e2⟩ | ⟨e1, e2⟩ <;> subst e1 e2 <;> simp [hcd, hcd.symm]
  · intro i f i' f' _ _ e
    change m.faceInternal _ = m.faceInternal _
    exact congrArg _ e
  · intro i f i' f' hr hr' hint hint'
    change m.faceInternal (m.subFace v i f) = true at hint
    change m.faceInternal (m.subFace v i' f') = true at hint'
    change (linkOf m v l (m.subFace v i f)).getD 0 = (linkOf m v l (m.subFace v i' f')).getD 0 ↔
      m.subFace v i f = m.subFace v i' f'
    obtain ⟨_, _, _, _, hx, _⟩ := rng i f hr
    obtain ⟨_, _, _, _, hx', _⟩ := rng i' f' hr'
    obtain ⟨k, p, e1, e2, e3⟩ := lk _ hx hint
    obtain ⟨k', p', e1', e2', e3'⟩ := lk _ hx' hint'
    constructor
    · intro e
      rw [e1, e1'] at e
      simp only [Option.getD_some] at e
      subst e
      rw [e2] at e2'
      cases e2'
      exact joins_inj ha hx hx' e3 e3'
    · intro e
      rw [e]
  · intro i f hr hint
    change m.faceInternal (m.subFace v i f) = true at hint
    change (linkOf m v l (m.subFace v i f)).getD 0
      < ((m.vFaces v).filter fun x => m.faceInternal x).length
    obtain ⟨_, _, _, _, hx, _⟩ := rng i f hr
    obtain ⟨k, p, e1, e2, e3⟩ := lk _ hx hint
    rw [e1, ← hlen]
    simp only [Option.getD_some]
    by_contra hk
    rw [hab, List.getElem?_append_right (by omega)] at e2
    have := h2 p (List.mem_of_getElem? e2)
    rw [joins_pair_internal ha hx e3, hint] at this
    cases this
  · intro r hr
    change r < ((m.vFaces v).filter fun x => m.faceInternal x).length at hr
    rw [← hlen] at hr
    have hlr : l[r]? = some a[r] := by
      rw [hab, List.getElem?_append_left hr]
      exact List.getElem?_eq_getElem hr
    obtain ⟨x, hx, hj⟩ := hl.sound _ (List.mem_of_getElem? hlr)
    have hint : m.faceInternal x = true := by
      rw [← joins_pair_internal ha hx hj]
      exact h1 _ (List.getElem_mem hr)
    obtain ⟨c, _, d, _, hcd, hf⟩ := ha.internal x hx hint
    obtain ⟨i, f, hri, _, hsub⟩ := mk c x hx (Or.inl (by rw [hf]))
    refine ⟨i, f, hri, ?_, ?_⟩
    · change m.faceInternal (m.subFace v i f) = true
      rw [hsub]; exact hint
    · change (linkOf m v l (m.subFace v i f)).getD 0 = r
      obtain ⟨k, p, e1, e2, e3⟩ := lk x hx hint
      rw [hsub, e1]
      exact not_udiff_eq hl.once e2 hlr (joins_unique ha hx e3 hj)

/-- No internal face is left without a connection. -/
theorem linked_ok (ha : Around m v) {l : List (ℤ × ℤ)} (hl : Conns m v l) :
    linked m v l = .ok l := by
  unfold linked
  rw [if_pos]
  rw [List.all_eq_true]
  intro i hi
  rw [List.all_eq_true]
  intro f hf
  obtain ⟨c, hc, _⟩ := cell_index (m := m) (v := v) (List.mem_range.1 hi)
  obtain ⟨hx, _⟩ := ha.sub i c f hc (List.mem_range.1 hf)
  cases hint : m.faceInternal (m.subFace v i f) with
  | false => rfl
  | true =>
    obtain ⟨c, _, d, _, hcd, hf⟩ := ha.internal _ hx hint
    obtain ⟨k, p, h1, _⟩ := link_spec ha hl hx hf hcd
    rw [h1]
    rfl

end TDy.Traverse.Proofs
