import Verif.Proofs.MeshColumns
import Verif.Proofs.MeshConns

/-!
# The rows of a vertex whose cells stand in columns
-/

namespace TDy.Traverse.Proofs

open TDy.Traverse TDy.Traverse.Spec

variable {m : TMesh} {v : Nat}

theorem Rows2.symm {E0 E1 : List Ent} (h : Rows2 m v E0 E1) : Rows2 m v E1 E0 where
  ok0 := h.ok1
  ok1 := h.ok0
  nodup0 := h.nodup1
  nodup1 := h.nodup0
  disj := fun e he he' => h.disj e he' he
  len0 := h.len1
  len1 := h.len0
  sound0 := h.sound1
  sound1 := h.sound0
  soundX := by
    intro i e e' he he' hf
    obtain ⟨x, hx, hj⟩ := h.soundX i e' e he' he (fun g => hf ⟨g.2, g.1⟩)
    exact ⟨x, hx, hj.symm⟩
  complete := by
    intro x hx
    rcases h.complete x hx with h' | h' | ⟨i, e, e', he, he', hj⟩
    · exact Or.inr (Or.inl h')
    · exact Or.inl h'
    · exact Or.inr (Or.inr ⟨i, e', e, he', he, hj.symm⟩)

/-- A level is converted to a row. -/
theorem level_converted (ha : Around m v) {L : List Nat} (hL : ∀ c ∈ L, c ∈ m.vCells v)
    (hs : (Ring m L ∧ ∀ x ∈ m.vBnd v, ¬ Upright m v x) ∨ Ended m v L)
    (h1 : L.length = 1 → ∀ x ∈ m.vBnd v, Upright m v x) :
    ∃ E, LevelRow m v L E ∧ convert m v L = .ok (rowOf (E.map (Ent.num m v))) := by
  rcases hs with ⟨hr, hx⟩ | he
  · exact ⟨_, levelRow_ring ha hL hr hx, convert_ring hL hr hx⟩
  · obtain ⟨p, q, hpq, hc⟩ := convert_ended ha hL he h1
    exact ⟨_, levelRow_ended ha hL he.toChain hpq, hc⟩

theorem front_lt {L : List Nat} {E : List Ent} (h : LevelRow m v L E) {i : Nat} (hi : i < L.length) :
    E[i]? = (L[i]?).map Ent.cell := by
  obtain ⟨F, hE, _⟩ := h.front
  rw [hE, List.getElem?_append_left (by simpa using hi), List.getElem?_map]

theorem front_ge {L : List Nat} {E : List Ent} (h : LevelRow m v L E) {i : Nat} {e : Ent}
    (hi : L.length ≤ i) (he : E[i]? = some e) : e.isFace := by
  obtain ⟨F, hE, _⟩ := h.front
  rw [hE, List.getElem?_append_right (by simpa using hi), List.getElem?_map] at he
  obtain ⟨x, _, rfl⟩ := Option.map_eq_some_iff.1 he
  trivial

/-- Two levels. -/
theorem rows_two (ha : Around m v) {A B : List Nat} (h : Layered m v A B) (hA0 : A ≠ [])
    (hB0 : B ≠ []) {E0 E1 : List Ent} (h0 : LevelRow m v A E0) (h1 : LevelRow m v B E1) :
    Rows2 m v E0 E1 := by
  have hnd : (A ++ B).Nodup := h.cells.nodup_iff.2 ha.cells_nodup
  have hAB := List.nodup_append.1 hnd
  have hAc : ∀ c ∈ A, c ∈ m.vCells v := fun c hc => h.cells.mem_iff.1 (List.mem_append_left _ hc)
  have hBc : ∀ c ∈ B, c ∈ m.vCells v := fun c hc => h.cells.mem_iff.1 (List.mem_append_right _ hc)
  obtain ⟨hl, hst⟩ := h.stacked hA0 hB0
  have cross : ∀ i c d : Nat, A[i]? = some c → B[i]? = some d →
      ∃ x ∈ m.vFaces v, JoinsE m x (.cell c) (.cell d) := by
    intro i c d hc hd
    have hcA := List.mem_of_getElem? hc
    have hdB := List.mem_of_getElem? hd
    exact joins_cells ha (hAc c hcA) (hBc d hdB) (hAB.2.2 c hcA d hdB) ((hst i i c d hc hd).2 rfl)
  refine ⟨h0.ok hAc, h1.ok hBc, h0.nodup, h1.nodup, ?_, Or.inl h0.three, Or.inl h1.three, h0.sound,
    h1.sound, ?_, ?_⟩
  · intro e he he'
    obtain ⟨F0, hE0, hF0⟩ := h0.front
    obtain ⟨F1, hE1, hF1⟩ := h1.front
    rw [hE0] at he
    rw [hE1] at he'
    rcases List.mem_append.1 he with g | g <;> obtain ⟨c, hc, rfl⟩ := List.mem_map.1 g <;>
      rcases List.mem_append.1 he' with g' | g' <;> obtain ⟨d, hd, hcd⟩ := List.mem_map.1 g' <;>
      cases hcd
    · exact hAB.2.2 c hc c hd rfl
    · obtain ⟨hb, _, a, haA, hsa⟩ := hF0 c hc
      obtain ⟨_, _, b, hbB, hsb⟩ := hF1 c hd
      exact hAB.2.2 a haA b hbB (bnd_side ha hb hsa hsb)
  · intro i e e' he he' hf
    rcases Nat.lt_or_ge i A.length with hi | hi
    · rw [front_lt h0 hi] at he
      rw [front_lt h1 (hl ▸ hi)] at he'
      obtain ⟨c, hc, rfl⟩ := Option.map_eq_some_iff.1 he
      obtain ⟨d, hd, rfl⟩ := Option.map_eq_some_iff.1 he'
      exact cross i c d hc hd
    · exact absurd ⟨front_ge h0 hi he, front_ge h1 (hl ▸ hi) he'⟩ hf
  · intro x hx
    cases hint : m.faceInternal x with
    | true =>
      obtain ⟨c, hc, d, hd, hcd, hf⟩ := ha.internal x hx hint
      have sc : Side m x c := Or.inl (by rw [hf])
      have sd : Side m x d := Or.inr (by rw [hf])
      have across : ∀ c d : Nat, c ∈ A → d ∈ B → Side m x c → Side m x d →
          ∃ (i : Nat) (e e' : Ent), E0[i]? = some e ∧ E1[i]? = some e' ∧ JoinsE m x e e' := by
        intro c d hcA hdB sc sd
        obtain ⟨i, hi⟩ := List.mem_iff_getElem?.1 hcA
        obtain ⟨j, hj⟩ := List.mem_iff_getElem?.1 hdB
        have hcd := hAB.2.2 c hcA d hdB
        have hij := (hst i j c d hi hj).1
          (neighbours_of_sides ha hx sc sd)
        subst hij
        have hil := (List.getElem?_eq_some_iff.1 hi).1
        refine ⟨i, .cell c, .cell d, ?_, ?_, Or.inl ⟨c, d, hcd, sc, sd, rfl, rfl⟩⟩
        · rw [front_lt h0 hil, hi]; rfl
        · rw [front_lt h1 (hl ▸ hil), hj]; rfl
      rcases List.mem_append.1 (h.cells.mem_iff.2 hc) with hcA | hcB <;>
        rcases List.mem_append.1 (h.cells.mem_iff.2 hd) with hdA | hdB
      · exact Or.inl (h0.inner c hcA d hdA hcd x hx sc sd)
      · exact Or.inr (Or.inr (across c d hcA hdB sc sd))
      · exact Or.inr (Or.inr (across d c hdA hcB sd sc))
      · exact Or.inr (Or.inl (h1.inner c hcB d hdB hcd x hx sc sd))
    | false =>
      have hb := (ha.bnd x).2 ⟨hx, hint⟩
      obtain ⟨c, hc, k, _, hf⟩ := ha.boundary x hx hint
      have sc : Side m x c := by
        rcases hf with hf | hf
        · exact Or.inl (by rw [hf])
        · exact Or.inr (by rw [hf])
      have hu := h.twoLevels hA0 hB0 x hb
      rcases List.mem_append.1 (h.cells.mem_iff.2 hc) with hcA | hcB
      · exact Or.inl (h0.outer c hcA x hb sc hu)
      · exact Or.inr (Or.inl (h1.outer c hcB x hb sc hu))

/-- One level. -/
theorem rows_one (ha : Around m v) {L : List Nat} (hn : L.Nodup) (hL : ∀ c, c ∈ L ↔ c ∈ m.vCells v)
    (hflat : ∀ c ∈ m.vCells v, (flatOf m v c).length = 1) {E : List Ent} (h0 : LevelRow m v L E) :
    Rows2 m v E (L.map fun c => Ent.face (flatFace m v c)) := by
  have hLc : ∀ c ∈ L, c ∈ m.vCells v := fun c hc => (hL c).1 hc
  have hspec : ∀ c ∈ L, ∀ x, (x ∈ m.vBnd v ∧ Side m x c ∧ ¬ Upright m v x) ↔ x = flatFace m v c :=
    fun c hc => flatFace_spec (hflat c (hLc c hc))
  have hface : ∀ e ∈ L.map fun c => Ent.face (flatFace m v c), e.isFace := by
    intro e he
    obtain ⟨c, _, rfl⟩ := List.mem_map.1 he
    trivial
  have hmap : ∀ i : Nat, (L.map fun c => Ent.face (flatFace m v c))[i]?
      = (L[i]?).map fun c => Ent.face (flatFace m v c) := fun i => List.getElem?_map ..
  refine ⟨h0.ok hLc, ?_, h0.nodup, ?_, ?_, Or.inl h0.three, Or.inr hface, h0.sound, ?_, ?_, ?_⟩
  · intro e he
    obtain ⟨c, hc, rfl⟩ := List.mem_map.1 he
    exact ((hspec c hc _).2 rfl).1
  · refine List.Nodup.map_on ?_ hn
    intro c hc d hd e
    injection e with e
    have h1 := (hspec c hc _).2 rfl
    have h2 := (hspec d hd _).2 rfl
    rw [e] at h1
    exact bnd_side ha h1.1 h1.2.1 h2.2.1
  · intro e he he'
    obtain ⟨F, hE, hF⟩ := h0.front
    obtain ⟨c, hc, rfl⟩ := List.mem_map.1 he'
    rw [hE] at he
    rcases List.mem_append.1 he with g | g
    · obtain ⟨d, _, hd⟩ := List.mem_map.1 g
      cases hd
    · obtain ⟨x, hx, hxe⟩ := List.mem_map.1 g
      injection hxe with hxe
      exact ((hspec c hc _).2 rfl).2.2 (hxe ▸ (hF x hx).2.1)
  · intro i e e' he he' hf
    exact absurd ⟨hface e (List.mem_of_getElem? he), hface e' (List.mem_of_getElem? he')⟩ hf
  · intro i e e' he he' _
    rw [hmap] at he'
    obtain ⟨c, hc, rfl⟩ := Option.map_eq_some_iff.1 he'
    have hil := (List.getElem?_eq_some_iff.1 hc).1
    rw [front_lt h0 hil, hc] at he
    cases he
    have hs := (hspec c (List.mem_of_getElem? hc) _).2 rfl
    exact ⟨_, joins_bnd ha hs.1 hs.2.1⟩
  · intro x hx
    cases hint : m.faceInternal x with
    | true =>
      obtain ⟨c, hc, d, hd, hcd, hf⟩ := ha.internal x hx hint
      exact Or.inl (h0.inner c ((hL c).2 hc) d ((hL d).2 hd) hcd x hx (Or.inl (by rw [hf]))
        (Or.inr (by rw [hf])))
    | false =>
      have hb := (ha.bnd x).2 ⟨hx, hint⟩
      obtain ⟨c, hc, k, _, hf⟩ := ha.boundary x hx hint
      have sc : Side m x c := by
        rcases hf with hf | hf
        · exact Or.inl (by rw [hf])
        · exact Or.inr (by rw [hf])
      have hcL := (hL c).2 hc
      by_cases hu : Upright m v x
      · exact Or.inl (h0.outer c hcL x hb sc hu)
      · right; right
        obtain ⟨i, hi⟩ := List.mem_iff_getElem?.1 hcL
        have hxe := (hspec c hcL x).1 ⟨hb, sc, hu⟩
        refine ⟨i, .cell c, .face x, ?_, ?_, (joins_bnd ha hb sc).2⟩
        · rw [front_lt h0 (List.getElem?_eq_some_iff.1 hi).1, hi]; rfl
        · rw [hmap, hi, hxe]; rfl

theorem upToDown_eq (A B : List Nat) : upToDown m v A B = (ordered m v A B).bind fun AB =>
    (convert m v AB.1).bind fun t0 => (convert m v AB.2).bind fun t1 =>
      if AB.1.length = 0 then connections m v (addUpDown m v AB.2 t1 t0) t1
      else if AB.2.length = 0 then connections m v t0 (addUpDown m v AB.1 t0 t1)
      else connections m v t0 t1 := rfl

/-- The rows that are made of the cells of a layered vertex. -/
theorem layered_rows (ha : Around m v) {A B Ain Bin : List Nat} (h : Layered m v A B)
    (hA : Ain.Perm A) (hB : Bin.Perm B) :
    ∃ E0 E1, Rows2 m v E0 E1 ∧
      upToDown m v Ain Bin = connections m v (rowOf (E0.map (Ent.num m v)))
        (rowOf (E1.map (Ent.num m v))) := by
  obtain ⟨A', B', ho, h'⟩ := ordered_layered ha h hA hB
  have hnd : (A' ++ B').Nodup := h'.cells.nodup_iff.2 ha.cells_nodup
  have hAB := List.nodup_append.1 hnd
  have hAc : ∀ c ∈ A', c ∈ m.vCells v := fun c hc => h'.cells.mem_iff.1 (List.mem_append_left _ hc)
  have hBc : ∀ c ∈ B', c ∈ m.vCells v := fun c hc => h'.cells.mem_iff.1 (List.mem_append_right _ hc)
  have hlen : A'.length + B'.length = (m.vCells v).length := by
    rw [← List.length_append, h'.cells.length_eq]
  have hsev := h'.several
  have sideA : A' ≠ [] → (Ring m A' ∧ ∀ x ∈ m.vBnd v, ¬ Upright m v x) ∨ Ended m v A' := by
    intro hne
    rcases h'.sides with ⟨h1, _, h3⟩ | ⟨h1, _⟩
    · exact Or.inl ⟨h1.resolve_left hne, h3⟩
    · exact Or.inr (h1.resolve_left hne)
  have sideB : B' ≠ [] → (Ring m B' ∧ ∀ x ∈ m.vBnd v, ¬ Upright m v x) ∨ Ended m v B' := by
    intro hne
    rcases h'.sides with ⟨_, h1, h3⟩ | ⟨_, h1⟩
    · exact Or.inl ⟨h1.resolve_left hne, h3⟩
    · exact Or.inr (h1.resolve_left hne)
  have hnil : convert m v [] = .ok (rowOf []) := rfl
  rw [upToDown_eq, ho]
  by_cases hA0 : A' = []
  · subst hA0
    have hB0 : B' ≠ [] := by rintro rfl; simp at hlen; omega
    obtain ⟨E, hE, hc⟩ := level_converted ha hBc (sideB hB0)
      (fun h1 => by rw [h1] at hlen; simp at hlen; omega)
    have hfl := h'.oneLevel (Or.inl rfl)
    refine ⟨_, E, (rows_one ha hAB.2.1 (fun c => by simpa using h'.cells.mem_iff (a := c)) hfl hE).symm, ?_⟩
    simp only [Out.bind, hnil, hc, List.length_nil, if_true]
    rw [addUpDown_eq ha hBc hAB.2.1 hE (fun c hc => hfl c (hBc c hc))]
  · by_cases hB0 : B' = []
    · subst hB0
      obtain ⟨E, hE, hc⟩ := level_converted ha hAc (sideA hA0)
        (fun h1 => by rw [h1] at hlen; simp at hlen; omega)
      have hfl := h'.oneLevel (Or.inr rfl)
      refine ⟨E, _, rows_one ha hAB.1 (fun c => by simpa using h'.cells.mem_iff (a := c)) hfl hE, ?_⟩
      simp only [Out.bind, hnil, hc, List.length_nil, if_true]
      rw [if_neg (by simpa using hA0), addUpDown_eq ha hAc hAB.1 hE (fun c hc => hfl c (hAc c hc))]
    · have hup := h'.twoLevels hA0 hB0
      obtain ⟨E0, hE0, hc0⟩ := level_converted ha hAc (sideA hA0) (fun _ => hup)
      obtain ⟨E1, hE1, hc1⟩ := level_converted ha hBc (sideB hB0) (fun _ => hup)
      refine ⟨E0, E1, rows_two ha h' hA0 hB0 hE0 hE1, ?_⟩
      simp only [Out.bind, hc0, hc1]
      rw [if_neg (by simpa using hA0), if_neg (by simpa using hB0)]

/-- What is required of the connections of a vertex. -/
structure Conns (m : TMesh) (v : Nat) (l : List (ℤ × ℤ)) : Prop where
  sound : ∀ p ∈ l, ∃ x ∈ m.vFaces v, Joins m v x p
  complete : ∀ x ∈ m.vFaces v, ∃ p ∈ l, Joins m v x p
  once : l.Pairwise UDiff
  cellsFirst : ∃ a b, l = a ++ b ∧ (∀ p ∈ a, isCellPair (m.vCells v).length p = true) ∧
    ∀ p ∈ b, isCellPair (m.vCells v).length p = false

theorem pairwise_filter_append {l : List (ℤ × ℤ)} (h : l.Pairwise UDiff) (P : ℤ × ℤ → Bool) :
    (l.filter P ++ l.filter fun p => !P p).Pairwise UDiff :=
  ((List.filter_append_perm P l).pairwise_iff (fun h => UDiff.symm h)).2 h

theorem upToDown_conns (ha : Around m v) {A B Ain Bin : List Nat} (h : Layered m v A B)
    (hA : Ain.Perm A) (hB : Bin.Perm B) :
    ∃ l, upToDown m v Ain Bin = .ok l ∧ Conns m v l := by
  obtain ⟨E0, E1, hr, he⟩ := layered_rows ha h hA hB
  have hs := rows_sound hr
  have hp := rows_pairwise hr
  have hle := (length_le_faces ha hs hp).trans ha.room
  rw [he, connections_eq _ _ hle]
  refine ⟨_, rfl, ?_, ?_, pairwise_filter_append hp _, _, _, rfl, ?_, ?_⟩
  · intro p hp'
    exact hs p ((List.filter_append_perm _ _).mem_iff.1 hp')
  · intro x hx
    obtain ⟨p, hp', hj⟩ := rows_complete hr hx
    exact ⟨p, (List.filter_append_perm _ _).mem_iff.2 hp', hj⟩
  · intro p hp'
    exact (List.mem_filter.1 hp').2
  · intro p hp'
    simpa using (List.mem_filter.1 hp').2

end TDy.Traverse.Proofs
