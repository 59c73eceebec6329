import Verif.Proofs.MeshWell

/-!
# Cells above and below a vertex
-/

namespace TDy.Traverse.Proofs

open TDy.Traverse TDy.Traverse.Spec
open Classical

variable {m : TMesh} {v : Nat}

theorem verticalVertex_eq {c w : Nat} (h : Edge m v c w) (hu : ∀ w', Edge m v c w' → w' = w) :
    verticalVertex m c v = some w := by
  unfold verticalVertex
  have hP : ∀ u, (u ∈ m.cellVerts c ∧ (u != v && sameXY m v u) = true) ↔ Edge m v c u := by
    intro u
    rw [Bool.and_eq_true, bne_iff_ne, sameXY_iff]
    exact ⟨fun ⟨a, b, c⟩ => ⟨a, b, c⟩, fun ⟨a, b, c⟩ => ⟨a, b, c⟩⟩
  cases hf : (m.cellVerts c).find? fun u => u != v && sameXY m v u with
  | none =>
    rw [List.find?_eq_none] at hf
    exact absurd ((hP w).2 h).2 (hf w h.vertex)
  | some u =>
    have h1 := List.mem_of_find?_eq_some hf
    have h2 := List.find?_some hf
    rw [hu u ((hP u).1 ⟨h1, h2⟩)]

theorem isAbove_eq (hm : Columnar m) (hv : LocalVertex m v) {c : Nat} (hc : c ∈ m.vCells v) :
    isAbove m c v = decide (Over m v c) := by
  obtain ⟨w, _, he, _, hu⟩ := hm.edge v hv c hc
  unfold isAbove
  rw [verticalVertex_eq he hu]
  simp only
  rw [decide_eq_decide]
  constructor
  · intro h; exact ⟨w, he, h⟩
  · rintro ⟨w', he', h⟩
    rw [hu w' he'] at h
    exact h

/-- The cell has a boundary face along its vertical edge. -/
def AtSide (m : TMesh) (v c : Nat) : Prop :=
  ∃ w f, Edge m v c w ∧ f ∈ m.cellFaces c ∧ v ∈ m.faceVerts f ∧ w ∈ m.faceVerts f ∧
    m.faceInternal f = false

theorem hasBndEdge_eq (hm : Columnar m) (hv : LocalVertex m v) {c : Nat} (hc : c ∈ m.vCells v) :
    hasBndEdge m v c = .ok (decide (AtSide m v c)) := by
  obtain ⟨w, _, he, _, hu⟩ := hm.edge v hv c hc
  have hfl : edgeFlags m c v w = ((m.cellFaces c).filter fun f =>
      decide (v ∈ m.faceVerts f ∧ w ∈ m.faceVerts f)).map fun f => !m.faceInternal f := by
    unfold edgeFlags
    congr 1
    apply List.filter_congr
    intro f _
    rw [Bool.eq_iff_iff]
    simp only [beq_iff_eq, decide_eq_true_eq]
    have h1 := List.nodup_iff_count_le_one.1 (hm.corners f) v
    have h2 := List.nodup_iff_count_le_one.1 (hm.corners f) w
    rw [← List.count_pos_iff, ← List.count_pos_iff]
    omega
  have hlen := hm.faces v hv c hc w he
  obtain ⟨f, g, hfg⟩ := List.length_eq_two.1 hlen
  unfold hasBndEdge
  rw [verticalVertex_eq he hu]
  simp only
  rw [hfl, hfg]
  simp only [List.map_cons, List.map_nil]
  congr 1
  rw [Bool.eq_iff_iff]
  have hmem : ∀ x, x ∈ m.cellFaces c ∧ v ∈ m.faceVerts x ∧ w ∈ m.faceVerts x ↔ x = f ∨ x = g := by
    intro x
    have : x ∈ (m.cellFaces c).filter (fun f => decide (v ∈ m.faceVerts f ∧ w ∈ m.faceVerts f)) ↔
        x = f ∨ x = g := by rw [hfg]; simp
    rw [← this, List.mem_filter, decide_eq_true_eq]
  simp only [Bool.or_eq_true, Bool.not_eq_true', decide_eq_true_eq]
  constructor
  · rintro (h | h)
    · obtain ⟨a, b, c'⟩ := (hmem f).2 (Or.inl rfl)
      exact ⟨w, f, he, a, b, c', h⟩
    · obtain ⟨a, b, c'⟩ := (hmem g).2 (Or.inr rfl)
      exact ⟨w, g, he, a, b, c', h⟩
  · rintro ⟨w', x, he', hx, h1, h2, h3⟩
    have := hu w' he'
    subst this
    rcases (hmem x).1 ⟨hx, h1, h2⟩ with rfl | rfl
    · exact Or.inl h3
    · exact Or.inr h3

theorem splitBnd_eq (hm : Columnar m) (hv : LocalVertex m v) : ∀ cs : List Nat,
    (∀ c ∈ cs, c ∈ m.vCells v) → splitBnd m v cs = .ok
      (cs.filter (fun c => decide (AtSide m v c)), cs.filter (fun c => !decide (AtSide m v c)))
  | [], _ => rfl
  | c :: cs, h => by
    have ih := splitBnd_eq hm hv cs (fun d hd => h d (List.mem_cons_of_mem _ hd))
    unfold splitBnd
    rw [hasBndEdge_eq hm hv (h c List.mem_cons_self), ih]
    simp only [Out.bind]
    by_cases hs : AtSide m v c <;> simp [hs]

theorem levelOrder_ok (hm : Columnar m) (hv : LocalVertex m v) {cs : List Nat}
    (hc : ∀ c ∈ cs, c ∈ m.vCells v)
    (h2 : 2 ≤ cs.length → (cs.filter fun c => decide (AtSide m v c)).length ≤ 2) :
    ∃ out, levelOrder m v cs = .ok out ∧ out.Perm cs := by
  unfold levelOrder
  by_cases hl : cs.length < 2
  · rw [if_pos hl]; exact ⟨cs, rfl, List.Perm.refl _⟩
  rw [if_neg hl, splitBnd_eq hm hv cs hc]
  simp only [Out.bind]
  have hperm := List.filter_append_perm (fun c => decide (AtSide m v c)) cs
  have hle := h2 (by omega)
  revert hperm hle
  generalize cs.filter (fun c => decide (AtSide m v c)) = P
  generalize cs.filter (fun c => !decide (AtSide m v c)) = Q
  intro hperm hle
  match P, hle, hperm with
  | [], _, _ => exact ⟨cs, rfl, List.Perm.refl _⟩
  | [b], _, h => exact ⟨b :: Q, rfl, h⟩
  | [b, b'], _, h =>
    refine ⟨b :: Q ++ [b'], rfl, ?_⟩
    refine List.Perm.trans ?_ h
    change (b :: (Q ++ [b'])).Perm (b :: ([b'] ++ Q))
    exact (List.perm_append_comm).cons b
  | _ :: _ :: _ :: _, h, _ => simp at h

theorem atSide_upright (hm : Columnar m) (hv : LocalVertex m v) (ha : Around m v) {c : Nat}
    (hc : c ∈ m.vCells v) (h : AtSide m v c) : ∃ f ∈ m.vBnd v, Upright m v f ∧ f ∈ uprightOf m v c := by
  obtain ⟨w, f, he, hf, h1, h2, h3⟩ := h
  obtain ⟨g1, g2⟩ := hm.incident v hv c hc f hf h1
  have hb := (ha.bnd f).2 ⟨g1, h3⟩
  have hu : Upright m v f := ⟨w, h2, he.other, he.plumb⟩
  exact ⟨f, hb, hu, (mem_uprightOf c f).2 ⟨hb, g2, hu⟩⟩

/-- A level has at most two cells at a side of the domain. -/
theorem level_sides (hm : Columnar m) (hv : LocalVertex m v) (ha : Around m v) {L : List Nat}
    (hL : ∀ c ∈ L, c ∈ m.vCells v)
    (hs : L = [] ∨ (∀ x ∈ m.vBnd v, ¬ Upright m v x) ∨ Ended m v L) :
    (L.filter fun c => decide (AtSide m v c)).length ≤ 2 := by
  rcases hs with rfl | hx | he
  · simp
  · have : L.filter (fun c => decide (AtSide m v c)) = [] := by
      rw [List.filter_eq_nil_iff]
      intro c hc
      simp only [decide_eq_true_eq]
      intro h
      obtain ⟨f, hb, hu, _⟩ := atSide_upright hm hv ha (hL c hc) h
      exact hx f hb hu
    rw [this]; simp
  · have hn : (L.filter fun c => decide (AtSide m v c)).Nodup := he.nodup.filter _
    have hsub : L.filter (fun c => decide (AtSide m v c)) ⊆ [L.getD 0 0, L.getD (L.length - 1) 0] := by
      intro c hc
      obtain ⟨hcL, hs⟩ := List.mem_filter.1 hc
      simp only [decide_eq_true_eq] at hs
      obtain ⟨f, _, _, hf⟩ := atSide_upright hm hv ha (hL c hcL) hs
      obtain ⟨i, hi⟩ := List.mem_iff_getElem?.1 hcL
      have hlen := he.ends i c hi
      have hpos : 0 < (uprightOf m v c).length := List.length_pos_of_mem hf
      by_cases h0 : i = 0
      · subst h0
        rw [List.getD_eq_getElem?_getD, hi]; simp
      · by_cases h1 : i + 1 = L.length
        · have : L.length - 1 = i := by omega
          rw [this, List.getD_eq_getElem?_getD (i := i), hi]; simp
        · rw [if_neg h0, if_neg h1] at hlen; omega
    have := (List.subperm_of_subset hn hsub).length_le
    simpa using this

theorem filter_perm_length {P : Nat → Bool} {l l' : List Nat} (h : l.Perm l') :
    (l.filter P).length = (l'.filter P).length := (h.filter P).length_eq

theorem overs_unders_length : (overs m v).length + (unders m v).length = (m.vCells v).length := by
  have := (List.filter_append_perm (fun c => decide (Over m v c)) (m.vCells v)).length_eq
  rw [List.length_append] at this
  unfold overs unders
  rw [← this]
  congr 2
  apply List.filter_congr
  intro c _
  simp

theorem mem_overs {c : Nat} : c ∈ overs m v ↔ c ∈ m.vCells v ∧ Over m v c := by
  unfold overs; rw [List.mem_filter, decide_eq_true_eq]

theorem mem_unders {c : Nat} : c ∈ unders m v ↔ c ∈ m.vCells v ∧ ¬ Over m v c := by
  unfold unders; rw [List.mem_filter, decide_eq_true_eq]

theorem cells_nodup (hm : Columnar m) (hv : LocalVertex m v) : (m.vCells v).Nodup := by
  by_cases h2 : 2 ≤ (m.vCells v).length
  · exact (hm.around v hv h2).cells_nodup
  · match h : m.vCells v with
    | [] => exact List.nodup_nil
    | [c] => exact List.nodup_singleton c
    | _ :: _ :: _ => rw [h] at h2; simp at h2

theorem aboveBelow_ok (hm : Columnar m) (hv : LocalVertex m v) :
    ∃ A B, aboveBelow m v = .ok (A, B) ∧ A.Perm (overs m v) ∧ B.Perm (unders m v) := by
  have eA : (m.vCells v).filter (fun c => isAbove m c v) = overs m v := by
    apply List.filter_congr
    intro c hc; exact isAbove_eq hm hv hc
  have eB : (m.vCells v).filter (fun c => !isAbove m c v) = unders m v := by
    apply List.filter_congr
    intro c hc; rw [isAbove_eq hm hv hc]; simp
  have hAc : ∀ c ∈ overs m v, c ∈ m.vCells v := fun c hc => (mem_overs.1 hc).1
  have hBc : ∀ c ∈ unders m v, c ∈ m.vCells v := fun c hc => (mem_unders.1 hc).1
  have hsum := overs_unders_length (m := m) (v := v)
  have hpos : 0 < (m.vCells v).length := List.length_pos_of_ne_nil (hm.cells v hv)
  have hside : (2 ≤ (overs m v).length →
        ((overs m v).filter fun c => decide (AtSide m v c)).length ≤ 2) ∧
      (2 ≤ (unders m v).length →
        ((unders m v).filter fun c => decide (AtSide m v c)).length ≤ 2) ∧
      (0 < (overs m v).length → 0 < (unders m v).length →
        (overs m v).length = (unders m v).length) := by
    by_cases h2 : 2 ≤ (m.vCells v).length
    · have ha := hm.around v hv h2
      obtain ⟨A, B, hl, pA, pB⟩ := hm.layered v hv h2
      have hA : A = [] ∨ (∀ x ∈ m.vBnd v, ¬ Upright m v x) ∨ Ended m v A := by
        rcases hl.sides with ⟨_, _, h⟩ | ⟨h | h, _⟩
        · exact Or.inr (Or.inl h)
        · exact Or.inl h
        · exact Or.inr (Or.inr h)
      have hB : B = [] ∨ (∀ x ∈ m.vBnd v, ¬ Upright m v x) ∨ Ended m v B := by
        rcases hl.sides with ⟨_, _, h⟩ | ⟨_, h | h⟩
        · exact Or.inr (Or.inl h)
        · exact Or.inl h
        · exact Or.inr (Or.inr h)
      refine ⟨fun _ => ?_, fun _ => ?_, ?_⟩
      · rw [← filter_perm_length pA]
        exact level_sides hm hv ha (fun c hc => hAc c (pA.mem_iff.1 hc)) hA
      · rw [← filter_perm_length pB]
        exact level_sides hm hv ha (fun c hc => hBc c (pB.mem_iff.1 hc)) hB
      · intro h1 h2
        rw [← pA.length_eq] at h1 ⊢
        rw [← pB.length_eq] at h2 ⊢
        exact (hl.stacked (List.ne_nil_of_length_pos h1) (List.ne_nil_of_length_pos h2)).1
    · refine ⟨fun h => by omega, fun h => by omega, fun h1 h2 => by omega⟩
  obtain ⟨A, hA, pA⟩ := levelOrder_ok hm hv hAc hside.1
  obtain ⟨B, hB, pB⟩ := levelOrder_ok hm hv hBc hside.2.1
  refine ⟨A, B, ?_, pA, pB⟩
  unfold aboveBelow
  simp only
  rw [eA, eB, hA, hB]
  simp only [Out.bind]
  by_cases h1 : 0 < (overs m v).length <;> by_cases h2 : 0 < (unders m v).length
  · have := hside.2.2 h1 h2
    rw [if_pos (by simp [h1, h2]), if_neg (by simp [this])]
  · rw [if_neg (by simp only [Bool.and_eq_true, decide_eq_true_eq]; omega),
      if_neg (by simp only [Bool.and_eq_true, beq_iff_eq]; omega)]
  · rw [if_neg (by simp only [Bool.and_eq_true, decide_eq_true_eq]; omega),
      if_neg (by simp only [Bool.and_eq_true, beq_iff_eq]; omega)]
  · omega

/-- The cells above a vertex are those below the other end of the edge. -/
theorem overs_opposite (hm : Columnar m) (hv : LocalVertex m v) {c w : Nat} (hw : LocalVertex m w)
    (hc : c ∈ overs m v) (he : Edge m v c w) : (overs m v).Perm (unders m w) := by
  obtain ⟨hcv, w0, he0, hz⟩ := mem_overs.1 hc
  obtain ⟨w1, _, he1, _, hu1⟩ := hm.edge v hv c hcv
  have e0 : w0 = w := (hu1 w0 he0).trans (hu1 w he).symm
  subst e0
  apply (List.perm_ext_iff_of_nodup ((cells_nodup hm hv).filter _)
    ((cells_nodup hm hw).filter _)).2
  intro d
  change d ∈ overs m v ↔ d ∈ unders m w0
  rw [mem_overs, mem_unders]
  constructor
  · rintro ⟨hd, u, hu, hzu⟩
    have := hm.level v hv d hd c hcv u w0 hu he ⟨fun _ => hz, fun _ => hzu⟩
    subst this
    obtain ⟨hdw, hew⟩ := hm.both v u hv hw d hd hu
    refine ⟨hdw, ?_⟩
    rintro ⟨u', hu', hzu'⟩
    obtain ⟨t, _, _, _, ht⟩ := hm.edge u hw d hdw
    rw [(ht u' hu').trans (ht v hew).symm] at hzu'
    exact absurd hzu' (not_lt.2 hz.le)
  · rintro ⟨hd, hno⟩
    obtain ⟨u, _, hu, hne, hun⟩ := hm.edge w0 hw d hd
    have hzu : ¬ (m.coord w0).z < (m.coord u).z := fun h => hno ⟨u, hu, h⟩
    obtain ⟨hcw, hew⟩ := hm.both v w0 hv hw c hcv he
    have := hm.level w0 hw d hd c hcw u v hu hew
      ⟨fun h => absurd h hzu, fun h => absurd h (not_lt.2 hz.le)⟩
    subst this
    obtain ⟨hdv, hev⟩ := hm.both w0 u hw hv d hd hu
    exact ⟨hdv, w0, hev, hz⟩

theorem unders_opposite (hm : Columnar m) (hv : LocalVertex m v) {c w : Nat} (hw : LocalVertex m w)
    (hc : c ∈ unders m v) (he : Edge m v c w) : (unders m v).Perm (overs m w) := by
  obtain ⟨hcv, hno⟩ := mem_unders.1 hc
  obtain ⟨hcw, hew⟩ := hm.both v w hv hw c hcv he
  obtain ⟨w1, _, he1, hne, hu1⟩ := hm.edge v hv c hcv
  have e0 := hu1 w he
  subst e0
  have hz : (m.coord w).z < (m.coord v).z :=
    lt_of_le_of_ne (not_lt.1 fun h => hno ⟨w, he, h⟩) hne
  exact (overs_opposite hm hw hv (mem_overs.2 ⟨hcw, v, hew, hz⟩) hew).symm

/-- What is known of the rows when the first `k` vertices are done. -/
structure Inv (m : TMesh) (k : Nat) (st : Rows) : Prop where
  above : ∀ w, LocalVertex m w → ∀ L, st.above w = some L → L.Perm (overs m w)
  below : ∀ w, LocalVertex m w → ∀ L, st.below w = some L → L.Perm (unders m w)
  noneA : ∀ w, LocalVertex m w → w < k → st.above w = none → overs m w = []
  noneB : ∀ w, LocalVertex m w → w < k → st.below w = none → unders m w = []

theorem vertexSameXY_eq {c w : Nat} (h : Edge m v c w) (hu : ∀ w', Edge m v c w' → w' = w) :
    vertexSameXY m c v = w := by
  unfold vertexSameXY
  rw [verticalVertex_eq h hu]
  rfl

theorem saveOpposite_ok (hm : Columnar m) (hv : LocalVertex m v) {cs : List Nat}
    (hc : ∀ c ∈ cs, c ∈ m.vCells v) (r : Nat → Option (List Nat)) :
    ∃ r', saveOpposite m v cs r = .ok r' ∧ ∀ w, r' w = r w ∨
      (w ≠ v ∧ r' w = some cs ∧ ∃ c ∈ cs, Edge m v c w) := by
  cases cs with
  | nil => exact ⟨r, rfl, fun w => Or.inl rfl⟩
  | cons c cs =>
    obtain ⟨w, hw, he, _, hu⟩ := hm.edge v hv c (hc c List.mem_cons_self)
    have hx := vertexSameXY_eq he hu
    refine ⟨setRow r w (some (c :: cs)), ?_, ?_⟩
    · unfold saveOpposite
      simp only
      rw [hx, if_pos hw]
    · intro u
      unfold setRow
      by_cases h : u = w
      · right
        rw [if_pos h]
        subst h
        exact ⟨he.other, rfl, c, List.mem_cons_self, he⟩
      · left; rw [if_neg h]

theorem findStep_inv (hm : Columnar m) {k : Nat} (hk : k < m.numVertices) {st : Rows}
    (h : Inv m k st) : ∃ st', findStep m k st = .ok st' ∧ Inv m (k + 1) st' := by
  unfold findStep
  by_cases hl : m.isLocal k
  swap
  · refine ⟨st, by rw [if_pos (by simpa using hl)], h.above, h.below, ?_, ?_⟩
    · intro w hw hwk
      rcases Nat.lt_succ_iff_lt_or_eq.1 hwk with g | g
      · exact h.noneA w hw g
      · subst g; exact absurd hw.2 hl
    · intro w hw hwk
      rcases Nat.lt_succ_iff_lt_or_eq.1 hwk with g | g
      · exact h.noneB w hw g
      · subst g; exact absurd hw.2 hl
  rw [if_neg (by simpa using hl)]
  have hv : LocalVertex m k := ⟨hk, hl⟩
  have hsum := overs_unders_length (m := m) (v := k)
  have hother : ∀ (L X Y : List Nat), L.Perm X → X.length + Y.length = (m.vCells k).length →
      (∀ c, c ∈ Y ↔ c ∈ m.vCells k ∧ c ∉ X) → Y.Nodup →
      (∀ M, otherLevel m k L = some M → M.Perm Y) ∧ (otherLevel m k L = none → Y = []) := by
    intro L X Y hp hs hY hYn
    unfold otherLevel
    by_cases he : (m.vCells k).length = L.length
    · rw [if_pos he]
      refine ⟨fun M hM => by simp at hM, fun _ => ?_⟩
      rw [hp.length_eq] at he
      exact List.eq_nil_of_length_eq_zero (by omega)
    · rw [if_neg he]
      refine ⟨?_, fun hM => by simp at hM⟩
      intro M hM
      injection hM with hM
      subst hM
      apply (List.perm_ext_iff_of_nodup ((cells_nodup hm hv).filter _) hYn).2
      intro c
      rw [List.mem_filter, hY]
      simp [hp.mem_iff]
  have memO : ∀ c, c ∈ overs m k ↔ c ∈ m.vCells k ∧ c ∉ unders m k := by
    intro c; rw [mem_overs, mem_unders]; tauto
  have memU : ∀ c, c ∈ unders m k ↔ c ∈ m.vCells k ∧ c ∉ overs m k := by
    intro c; rw [mem_overs, mem_unders]; tauto
  have nO : (overs m k).Nodup := (cells_nodup hm hv).filter _
  have nU : (unders m k).Nodup := (cells_nodup hm hv).filter _
  cases hA : st.above k with
  | none =>
    cases hB : st.below k with
    | none =>
      simp only
      unfold findAtVertex
      obtain ⟨A, B, hab, pA, pB⟩ := aboveBelow_ok hm hv
      rw [hab]
      simp only
      have hAc : ∀ c ∈ A, c ∈ m.vCells k := fun c hc => (mem_overs.1 (pA.mem_iff.1 hc)).1
      have hBc : ∀ c ∈ B, c ∈ m.vCells k := fun c hc => (mem_unders.1 (pB.mem_iff.1 hc)).1
      obtain ⟨below, e1, h1⟩ := saveOpposite_ok hm hv hAc (setRow st.below k (some B))
      obtain ⟨above, e2, h2⟩ := saveOpposite_ok hm hv hBc (setRow st.above k (some A))
      rw [e1]
      simp only
      rw [e2]
      refine ⟨_, rfl, ?_, ?_, ?_, ?_⟩
      · intro w hw L hL
        simp only at hL
        rcases h2 w with g | ⟨_, g, c, hc, he⟩
        · rw [g] at hL
          unfold setRow at hL
          split_ifs at hL with hwk
          · injection hL with hL; subst hL; subst hwk; exact pA
          · exact h.above w hw L hL
        · rw [g] at hL
          injection hL with hL
          subst hL
          exact pB.trans (unders_opposite hm hv hw (pB.mem_iff.1 hc) he)
      · intro w hw L hL
        simp only at hL
        rcases h1 w with g | ⟨_, g, c, hc, he⟩
        · rw [g] at hL
          unfold setRow at hL
          split_ifs at hL with hwk
          · injection hL with hL; subst hL; subst hwk; exact pB
          · exact h.below w hw L hL
        · rw [g] at hL
          injection hL with hL
          subst hL
          exact pA.trans (overs_opposite hm hv hw (pA.mem_iff.1 hc) he)
      · intro w hw hwk hn
        simp only at hn
        rcases h2 w with g | ⟨_, g, _⟩
        · rw [g] at hn
          unfold setRow at hn
          split_ifs at hn with hwk'
          exact h.noneA w hw (by omega) hn
        · rw [g] at hn; simp at hn
      · intro w hw hwk hn
        simp only at hn
        rcases h1 w with g | ⟨_, g, _⟩
        · rw [g] at hn
          unfold setRow at hn
          split_ifs at hn with hwk'
          exact h.noneB w hw (by omega) hn
        · rw [g] at hn; simp at hn
    | some B =>
      have pB := h.below k hv B hB
      have ho := hother B _ _ pB (by omega) memO nO
      refine ⟨_, rfl, ?_, h.below, ?_, ?_⟩
      · intro w hw L hL
        simp only at hL
        unfold setRow at hL
        split_ifs at hL with hwk
        · subst hwk; exact ho.1 L hL
        · exact h.above w hw L hL
      · intro w hw hwk hn
        simp only at hn
        unfold setRow at hn
        split_ifs at hn with hwk'
        · subst hwk'; exact ho.2 hn
        · exact h.noneA w hw (by omega) hn
      · intro w hw hwk hn
        simp only at hn
        rcases Nat.lt_succ_iff_lt_or_eq.1 hwk with g | g
        · exact h.noneB w hw g hn
        · subst g; rw [hB] at hn; simp at hn
  | some A =>
    have pA := h.above k hv A hA
    cases hB : st.below k with
    | none =>
      have ho := hother A _ _ pA (by omega) memU nU
      refine ⟨_, rfl, h.above, ?_, ?_, ?_⟩
      · intro w hw L hL
        simp only at hL
        unfold setRow at hL
        split_ifs at hL with hwk
        · subst hwk; exact ho.1 L hL
        · exact h.below w hw L hL
      · intro w hw hwk hn
        simp only at hn
        rcases Nat.lt_succ_iff_lt_or_eq.1 hwk with g | g
        · exact h.noneA w hw g hn
        · subst g; rw [hA] at hn; simp at hn
      · intro w hw hwk hn
        simp only at hn
        unfold setRow at hn
        split_ifs at hn with hwk'
        · subst hwk'; exact ho.2 hn
        · exact h.noneB w hw (by omega) hn
    | some B =>
      refine ⟨st, rfl, h.above, h.below, ?_, ?_⟩
      · intro w hw hwk hn
        rcases Nat.lt_succ_iff_lt_or_eq.1 hwk with g | g
        · exact h.noneA w hw g hn
        · subst g; rw [hA] at hn; simp at hn
      · intro w hw hwk hn
        rcases Nat.lt_succ_iff_lt_or_eq.1 hwk with g | g
        · exact h.noneB w hw g hn
        · subst g; rw [hB] at hn; simp at hn

/-- All rows of a mesh of vertical prisms. -/
theorem findAll_ok (hm : Columnar m) : ∃ st, findAll m = .ok st ∧
    ∀ v, LocalVertex m v → ((st.above v).getD []).Perm (overs m v) ∧
      ((st.below v).getD []).Perm (unders m v) := by
  have key : ∃ st, findAll m = .ok st ∧ Inv m m.numVertices st := by
    unfold findAll
    refine forN_invariant m.numVertices _ _ (fun k (r : Res Rows) => ∃ st, r = .ok st ∧ Inv m k st) ?_ ?_
    · exact ⟨_, rfl, fun w _ L h => by simp at h, fun w _ L h => by simp at h,
        fun w _ h => by omega, fun w _ h => by omega⟩
    · rintro k r hk ⟨st, rfl, hi⟩
      exact findStep_inv hm hk hi
  obtain ⟨st, e, hi⟩ := key
  refine ⟨st, e, fun v hv => ⟨?_, ?_⟩⟩
  · cases h : st.above v with
    | none => rw [hi.noneA v hv hv.1 h]; exact List.Perm.refl _
    | some L => exact hi.above v hv L h
  · cases h : st.below v with
    | none => rw [hi.noneB v hv hv.1 h]; exact List.Perm.refl _
    | some L => exact hi.below v hv L h

/-- All connections of a mesh of vertical prisms. -/
theorem setupTraversal_ok (hm : Columnar m) : ∃ r, setupTraversal m = .ok r ∧
    ∀ v, LocalVertex m v → 2 ≤ (m.vCells v).length → Conns m v (r v) := by
  obtain ⟨st, e, hst⟩ := findAll_ok hm
  unfold setupTraversal
  rw [e]
  simp only
  have key : ∀ n, n ≤ m.numVertices → ∃ r, upwindAll m st n = .ok r ∧
      ∀ v, v < n → LocalVertex m v → 2 ≤ (m.vCells v).length → Conns m v (r v) := by
    intro n
    induction n with
    | zero => exact fun _ => ⟨_, rfl, fun v h => by omega⟩
    | succ n ih =>
      intro hn
      obtain ⟨r, hr, hc⟩ := ih (by omega)
      unfold upwindAll
      rw [hr]
      simp only [Out.bind]
      by_cases hl : (m.vCells n).length > 1 ∧ m.isLocal n = true
      · have hv : LocalVertex m n := ⟨by omega, hl.2⟩
        have ha := hm.around n hv hl.1
        obtain ⟨A, B, hlay, pA, pB⟩ := hm.layered n hv hl.1
        obtain ⟨l, h1, h2⟩ := upToDown_conns ha hlay ((hst n hv).1.trans pA.symm)
          ((hst n hv).2.trans pB.symm)
        have hu : upwindFaces m n st = .ok l := by
          unfold upwindFaces
          rw [h1]
          exact linked_ok ha h2
        rw [if_pos (by simp [hl.1, hl.2]), hu]
        refine ⟨_, rfl, ?_⟩
        intro v hvn hlv hsev
        split_ifs with hvn'
        · subst hvn'; exact h2
        · exact hc v (by omega) hlv hsev
      · rw [if_neg (by simpa using hl)]
        refine ⟨r, rfl, ?_⟩
        intro v hvn hlv hsev
        rcases Nat.lt_succ_iff_lt_or_eq.1 hvn with g | g
        · exact hc v g hlv hsev
        · subst g; exact absurd ⟨hsev, hlv.2⟩ hl
  obtain ⟨r, h1, h2⟩ := key m.numVertices (le_refl _)
  exact ⟨r, h1, fun v hv hs => h2 v hv.1 hv hs⟩

end TDy.Traverse.Proofs
