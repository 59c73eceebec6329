import Verif.Proofs.MeshColumns
import Mathlib.Tactic.NormNum

/-!
# Connections around a vertex

The rows of `cell_traversal` for columns of cells, and the connections made from them.
-/

namespace TDy.Traverse.Proofs

open TDy.Traverse TDy.Traverse.Spec

variable {m : TMesh} {v : Nat}

/-! ### Cells and boundary faces of a vertex -/

/-- A cell or a boundary face. -/
inductive Ent where
  | cell (c : Nat)
  | face (x : Nat)

def Ent.isFace : Ent → Prop
  | .cell _ => False
  | .face _ => True

/-- It belongs to the vertex. -/
def Ent.Ok (m : TMesh) (v : Nat) : Ent → Prop
  | .cell c => c ∈ m.vCells v
  | .face x => x ∈ m.vBnd v

/-- Its number. -/
def Ent.num (m : TMesh) (v : Nat) : Ent → Nat
  | .cell c => (m.vCells v).idxOf c
  | .face x => (m.vCells v).length + (m.vBnd v).idxOf x

theorem num_cell (c : Nat) : ((Ent.num m v (.cell c) : Nat) : ℤ) = cellNo m v c := rfl
theorem num_face (x : Nat) : ((Ent.num m v (.face x) : Nat) : ℤ) = faceNo m v x := by
  simp [Ent.num, faceNo]

theorem num_isFace {e : Ent} (h : e.Ok m v) : (m.vCells v).length ≤ e.num m v ↔ e.isFace := by
  cases e with
  | cell c =>
    have : (m.vCells v).idxOf c < (m.vCells v).length := List.idxOf_lt_length_iff.2 h
    simp only [Ent.num, Ent.isFace, iff_false, not_le]
    exact this
  | face x => simp [Ent.num, Ent.isFace]

theorem idxOf_inj' {l : List Nat} {a b : Nat} (ha : a ∈ l) (hb : b ∈ l)
    (h : l.idxOf a = l.idxOf b) : a = b := by
  have h1 := List.getElem_idxOf (List.idxOf_lt_length_iff.2 ha)
  have h2 := List.getElem_idxOf (List.idxOf_lt_length_iff.2 hb)
  rw [← h1, ← h2]
  congr 1

theorem num_inj {e e' : Ent} (h : e.Ok m v) (h' : e'.Ok m v) (he : e.num m v = e'.num m v) :
    e = e' := by
  cases e with
  | cell c =>
    cases e' with
    | cell d => rw [idxOf_inj' h h' he]
    | face x =>
      have := (num_isFace h).not
      have h2 := num_isFace h'
      simp only [Ent.isFace, iff_true] at h2
      rw [← he] at h2
      exact absurd ((num_isFace h).1 h2) (by simp [Ent.isFace])
  | face x =>
    cases e' with
    | cell d =>
      have h2 := num_isFace h
      simp only [Ent.isFace, iff_true] at h2
      rw [he] at h2
      exact absurd ((num_isFace h').1 h2) (by simp [Ent.isFace])
    | face y =>
      simp only [Ent.num] at he
      rw [idxOf_inj' h h' (by omega)]

theorem num_lt {e : Ent} (h : e.Ok m v) :
    e.num m v < (m.vCells v).length + (m.vBnd v).length := by
  cases e with
  | cell c =>
    have : (m.vCells v).idxOf c < (m.vCells v).length := List.idxOf_lt_length_iff.2 h
    simp only [Ent.num]; omega
  | face x =>
    have : (m.vBnd v).idxOf x < (m.vBnd v).length := List.idxOf_lt_length_iff.2 h
    simp only [Ent.num]; omega

theorem nodup_num {E : List Ent} (hE : E.Nodup) (hok : ∀ e ∈ E, e.Ok m v) :
    (E.map (Ent.num m v)).Nodup :=
  List.Nodup.map_on (fun x hx y hy h => num_inj (hok x hx) (hok y hy) h) hE

theorem length_le_room {E : List Ent} (hE : E.Nodup) (hok : ∀ e ∈ E, e.Ok m v) :
    E.length ≤ (m.vCells v).length + (m.vBnd v).length := by
  have h1 := nodup_num hE hok
  have h2 : (E.map (Ent.num m v)) ⊆ List.range ((m.vCells v).length + (m.vBnd v).length) := by
    intro k hk
    obtain ⟨e, he, rfl⟩ := List.mem_map.1 hk
    exact List.mem_range.2 (num_lt (hok e he))
  have := (List.subperm_of_subset h1 h2).length_le
  simpa using this

/-! ### Flags as propositions -/

theorem owns_iff (c x : Nat) : owns m c x = true ↔ Side m x c := by
  simp [owns, Side]

theorem sameXY_iff (v w : Nat) : sameXY m v w = true ↔ Plumb m v w := by
  unfold sameXY Plumb
  rw [decide_eq_true_iff]
  have h : (0.0 : ℝ) + ((m.coord v).x - (m.coord w).x) * ((m.coord v).x - (m.coord w).x)
      + ((m.coord v).y - (m.coord w).y) * ((m.coord v).y - (m.coord w).y)
      = ((m.coord v).x - (m.coord w).x) ^ 2 + ((m.coord v).y - (m.coord w).y) ^ 2 := by
    norm_num; ring
  rw [h, show (1e-14 : ℝ) = 1 / 10 ^ 14 by norm_num]

theorem upright_iff (x : Nat) : upright m v x = true ↔ Upright m v x := by
  simp only [upright, Upright, List.any_eq_true, Bool.and_eq_true, bne_iff_ne, sameXY_iff]

theorem mem_uprightOf (c x : Nat) :
    x ∈ uprightOf m v c ↔ x ∈ m.vBnd v ∧ Side m x c ∧ Upright m v x := by
  simp [uprightOf]

theorem mem_flatOf (c x : Nat) :
    x ∈ flatOf m v c ↔ x ∈ m.vBnd v ∧ Side m x c ∧ ¬ Upright m v x := by
  simp [flatOf]

/-! ### Faces and their sides -/

theorem bnd_mem (ha : Around m v) {x : Nat} (h : x ∈ m.vBnd v) :
    x ∈ m.vFaces v ∧ m.faceInternal x = false := (ha.bnd x).1 h

/-- A boundary face has one cell on its sides. -/
theorem bnd_side (ha : Around m v) {x c d : Nat} (h : x ∈ m.vBnd v) (hc : Side m x c)
    (hd : Side m x d) : c = d := by
  obtain ⟨h1, h2⟩ := bnd_mem ha h
  obtain ⟨e, _, k, hk, hf⟩ := ha.boundary x h1 h2
  unfold Side at hc hd
  rcases hf with hf | hf <;> rw [hf] at hc hd <;> simp at hc hd <;> omega

theorem side_cell (ha : Around m v) {x c : Nat} (hx : x ∈ m.vFaces v) (hc : Side m x c) :
    c ∈ m.vCells v := by
  cases hi : m.faceInternal x with
  | true =>
    obtain ⟨a, ha', b, hb', _, hf⟩ := ha.internal x hx hi
    unfold Side at hc
    rw [hf] at hc
    simp at hc
    rcases hc with rfl | rfl
    · exact ha'
    · exact hb'
  | false =>
    obtain ⟨e, he, k, hk, hf⟩ := ha.boundary x hx hi
    unfold Side at hc
    rcases hf with hf | hf <;> rw [hf] at hc <;> simp at hc <;>
      rcases hc with h | h
    · exact h ▸ he
    · omega
    · omega
    · exact h ▸ he

/-- A face with two cells on its sides is internal. -/
theorem internal_of_sides (ha : Around m v) {x c d : Nat} (hx : x ∈ m.vFaces v) (hcd : c ≠ d)
    (hc : Side m x c) (hd : Side m x d) : m.faceInternal x = true := by
  cases hi : m.faceInternal x with
  | true => rfl
  | false => exact absurd (bnd_side ha ((ha.bnd x).2 ⟨hx, hi⟩) hc hd) hcd

theorem neighbours_of_sides (ha : Around m v) {x c d : Nat} (hx : x ∈ m.vFaces v)
    (hc : Side m x c) (hd : Side m x d) : Neighbours m c d :=
  ⟨x, ha.listed x hx c (side_cell ha hx hc) hc, ha.listed x hx d (side_cell ha hx hd) hd⟩

/-- What lies on the two sides of a face. -/
def JoinsE (m : TMesh) (x : Nat) (e e' : Ent) : Prop :=
  (∃ c d : Nat, c ≠ d ∧ Side m x c ∧ Side m x d ∧ e = .cell c ∧ e' = .cell d) ∨
  (m.faceInternal x = false ∧ ∃ c : Nat, Side m x c ∧
    ((e = .cell c ∧ e' = .face x) ∨ (e = .face x ∧ e' = .cell c)))

theorem JoinsE.symm {x : Nat} {e e' : Ent} (h : JoinsE m x e e') : JoinsE m x e' e := by
  rcases h with ⟨c, d, h1, h2, h3, h4, h5⟩ | ⟨h0, c, h1, h2⟩
  · exact Or.inl ⟨d, c, h1.symm, h3, h2, h5, h4⟩
  · exact Or.inr ⟨h0, c, h1, by tauto⟩

theorem joins_of_E {x : Nat} {e e' : Ent} (h : JoinsE m x e e') :
    Joins m v x ((e.num m v : ℤ), (e'.num m v : ℤ)) := by
  rcases h with ⟨c, d, h1, h2, h3, rfl, rfl⟩ | ⟨h0, c, h1, h2⟩
  · exact Or.inl ⟨c, d, h1, h2, h3, rfl⟩
  · refine Or.inr ⟨h0, c, h1, ?_⟩
    rcases h2 with ⟨rfl, rfl⟩ | ⟨rfl, rfl⟩
    · left; rw [num_cell, num_face]
    · right; rw [num_cell, num_face]

theorem Joins.swap {x : Nat} {p : ℤ × ℤ} (h : Joins m v x p) : Joins m v x p.swap := by
  rcases h with ⟨c, d, h1, h2, h3, rfl⟩ | ⟨h0, c, h1, h2⟩
  · exact Or.inl ⟨d, c, h1.symm, h3, h2, rfl⟩
  · refine Or.inr ⟨h0, c, h1, ?_⟩
    rcases h2 with rfl | rfl
    · exact Or.inr rfl
    · exact Or.inl rfl

/-! ### Rows -/

theorem rowOf_append (l : List Nat) (a : Nat) : wr (rowOf l) l.length (a : ℤ) = rowOf (l ++ [a]) := by
  funext i
  unfold wr rowOf
  rcases Nat.lt_trichotomy i l.length with h | h | h
  · rw [if_neg (by omega), List.getElem?_append_left h]
  · subst h; simp
  · rw [if_neg (by omega), List.getElem?_eq_none (by omega),
      List.getElem?_eq_none (by simp; omega)]

theorem rowOf_lt {l : List Nat} {i : Nat} (h : i < l.length) : rowOf l i = ((l.getD i 0 : Nat) : ℤ) := by
  unfold rowOf
  rw [List.getD_eq_getElem?_getD, List.getElem?_eq_getElem h]
  rfl

theorem rowOf_ge {l : List Nat} {i : Nat} (h : l.length ≤ i) : rowOf l i = -1 := by
  unfold rowOf
  rw [List.getElem?_eq_none h]
  rfl

theorem localCells_eq : ∀ (cs : List Nat), (∀ c ∈ cs, c ∈ m.vCells v) →
    localCells m v cs = .ok (cs.map fun c => Ent.num m v (.cell c))
  | [], _ => rfl
  | c :: cs, h => by
    have hc : c ∈ m.vCells v := h c (by simp)
    have hf : (m.vCells v).findIdx? (fun d => d == c) = some ((m.vCells v).idxOf c) := by
      rw [List.findIdx?_eq_some_iff_findIdx_eq]
      exact ⟨List.idxOf_lt_length_iff.2 hc, rfl⟩
    have ih := localCells_eq cs (fun c hc => h c (List.mem_cons_of_mem _ hc))
    simp [localCells, hf, ih, Out.bind, Ent.num]

theorem bndFace_idx {x : Nat} (h : x ∈ m.vBnd v) : bndFace m v ((m.vBnd v).idxOf x) = x := by
  have hl := List.idxOf_lt_length_iff.2 h
  unfold bndFace
  rw [List.getD_eq_getElem?_getD, List.getElem?_eq_getElem hl]
  simp

theorem bndFace_mem {i : Nat} (h : i < (m.vBnd v).length) : bndFace m v i ∈ m.vBnd v := by
  unfold bndFace
  rw [List.getD_eq_getElem?_getD, List.getElem?_eq_getElem h]
  exact List.getElem_mem h

theorem idx_bndFace (ha : Around m v) {i : Nat} (h : i < (m.vBnd v).length) :
    (m.vBnd v).idxOf (bndFace m v i) = i := by
  unfold bndFace
  rw [List.getD_eq_getElem?_getD, List.getElem?_eq_getElem h]
  exact ha.bnd_nodup.idxOf_getElem i h

theorem find_range {n k : Nat} {P : Nat → Bool} (hk : k < n) (hP : P k = true)
    (hu : ∀ j < n, P j = true → j = k) : (List.range n).find? P = some k := by
  cases hf : (List.range n).find? P with
  | none =>
    rw [List.find?_eq_none] at hf
    exact absurd hP (hf k (List.mem_range.2 hk))
  | some j =>
    rw [hu j (List.mem_range.1 (List.mem_of_find?_eq_some hf)) (List.find?_some hf)]

theorem find_range_none {n : Nat} {P : Nat → Bool} (h : ∀ j < n, P j = false) :
    (List.range n).find? P = none := by
  rw [List.find?_eq_none]
  intro j hj
  rw [h j (List.mem_range.1 hj)]
  simp

/-! ### The row of a level with cells -/

/-- The entries of the row of a level: its cells, then boundary faces, each entry joined with the
next by a face (unless both are faces), and every face between cells of the level, and every
upright boundary face of one of them, found that way. -/
structure LevelRow (m : TMesh) (v : Nat) (L : List Nat) (E : List Ent) : Prop where
  front : ∃ F : List Nat, E = L.map Ent.cell ++ F.map Ent.face ∧
    (∀ x ∈ F, x ∈ m.vBnd v ∧ Upright m v x ∧ ∃ c ∈ L, Side m x c)
  nodup : E.Nodup
  three : 3 ≤ E.length
  sound : ∀ i e e', E[i]? = some e → E[(i + 1) % E.length]? = some e' →
    ¬ (e.isFace ∧ e'.isFace) → ∃ x ∈ m.vFaces v, JoinsE m x e e'
  inner : ∀ c ∈ L, ∀ d ∈ L, c ≠ d → ∀ x ∈ m.vFaces v, Side m x c → Side m x d →
    ∃ i e e', E[i]? = some e ∧ E[(i + 1) % E.length]? = some e' ∧ JoinsE m x e e'
  outer : ∀ c ∈ L, ∀ x ∈ m.vBnd v, Side m x c → Upright m v x →
    ∃ i e e', E[i]? = some e ∧ E[(i + 1) % E.length]? = some e' ∧ JoinsE m x e e'

theorem LevelRow.ok {L : List Nat} {E : List Ent} (h : LevelRow m v L E)
    (hL : ∀ c ∈ L, c ∈ m.vCells v) : ∀ e ∈ E, e.Ok m v := by
  obtain ⟨F, hE, hF⟩ := h.front
  intro e he
  rw [hE] at he
  rcases List.mem_append.1 he with h' | h'
  · obtain ⟨c, hc, rfl⟩ := List.mem_map.1 h'
    exact hL c hc
  · obtain ⟨x, hx, rfl⟩ := List.mem_map.1 h'
    exact (hF x hx).1

theorem joins_cells (ha : Around m v) {c d : Nat} (hc : c ∈ m.vCells v) (hd : d ∈ m.vCells v)
    (hcd : c ≠ d) (hn : Neighbours m c d) :
    ∃ x ∈ m.vFaces v, JoinsE m x (.cell c) (.cell d) := by
  obtain ⟨x, hx, h1, h2⟩ := ha.shared c hc d hd hcd hn
  exact ⟨x, hx, Or.inl ⟨c, d, hcd, h1, h2, rfl, rfl⟩⟩

theorem joins_bnd (ha : Around m v) {c x : Nat} (hx : x ∈ m.vBnd v) (hc : Side m x c) :
    x ∈ m.vFaces v ∧ JoinsE m x (.cell c) (.face x) :=
  ⟨(bnd_mem ha hx).1, Or.inr ⟨(bnd_mem ha hx).2, c, hc, Or.inl ⟨rfl, rfl⟩⟩⟩

theorem ne_of_getElem? {L : List Nat} (hn : L.Nodup) {i j c d : Nat} (hc : L[i]? = some c)
    (hd : L[j]? = some d) (hij : i ≠ j) : c ≠ d := by
  rintro rfl
  exact hij ((List.getElem?_inj (List.getElem?_eq_some_iff.1 hc).1 hn).1 (hc.trans hd.symm))

theorem levelRow_ring (ha : Around m v) {L : List Nat} (hL : ∀ c ∈ L, c ∈ m.vCells v)
    (hr : Ring m L) (hx : ∀ x ∈ m.vBnd v, ¬ Upright m v x) : LevelRow m v L (L.map Ent.cell) := by
  have h3 := hr.three
  refine ⟨⟨[], by simp, by simp⟩, ?_, by simpa using h3, ?_, ?_, ?_⟩
  · exact List.Nodup.map (fun a b h => by cases h; rfl) hr.nodup
  · intro i e e' he he' _
    simp only [List.getElem?_map, Option.map_eq_some_iff, List.length_map] at he he'
    obtain ⟨c, hc, rfl⟩ := he
    obtain ⟨d, hd, rfl⟩ := he'
    have hi := (List.getElem?_eq_some_iff.1 hc).1
    have hcm := hL c (List.mem_of_getElem? hc)
    have hdm := hL d (List.mem_of_getElem? hd)
    rcases Nat.lt_or_ge (i + 1) L.length with h | h
    · rw [Nat.mod_eq_of_lt h] at hd
      exact joins_cells ha hcm hdm (ne_of_getElem? hr.nodup hc hd (by omega))
        ((hr.next i (i + 1) c d (by omega) hc hd).2 (Or.inl rfl))
    · have hil : i + 1 = L.length := by omega
      rw [hil, Nat.mod_self] at hd
      refine joins_cells ha hcm hdm (ne_of_getElem? hr.nodup hc hd (by omega)) ?_
      exact (neighbours_comm _ _).1 ((hr.next 0 i d c (by omega) hd hc).2 (Or.inr ⟨rfl, hil⟩))
  · intro c hc d hd hcd x hxf hsc hsd
    have hn := neighbours_of_sides ha hxf hsc hsd
    obtain ⟨i, hi⟩ := List.mem_iff_getElem?.1 hc
    obtain ⟨j, hj⟩ := List.mem_iff_getElem?.1 hd
    have hil := (List.getElem?_eq_some_iff.1 hi).1
    have hjl := (List.getElem?_eq_some_iff.1 hj).1
    simp only [List.getElem?_map, List.length_map]
    -- in either order
    have key : ∀ i j c d : Nat, L[i]? = some c → L[j]? = some d → i < j → Neighbours m c d →
        Side m x c → Side m x d → c ≠ d →
        ∃ k e e', Option.map Ent.cell L[k]? = some e ∧
          Option.map Ent.cell L[(k + 1) % L.length]? = some e' ∧ JoinsE m x e e' := by
      intro i j c d hi hj hij hn hsc hsd hcd
      have hjl := (List.getElem?_eq_some_iff.1 hj).1
      rcases (hr.next i j c d hij hi hj).1 hn with h | ⟨h0, h1⟩
      · refine ⟨i, .cell c, .cell d, by rw [hi]; rfl, ?_, Or.inl ⟨c, d, hcd, hsc, hsd, rfl, rfl⟩⟩
        rw [Nat.mod_eq_of_lt (by omega), ← h, hj]; rfl
      · refine ⟨j, .cell d, .cell c, by rw [hj]; rfl, ?_,
          Or.inl ⟨d, c, hcd.symm, hsd, hsc, rfl, rfl⟩⟩
        rw [h1, Nat.mod_self, ← h0, hi]; rfl
    rcases Nat.lt_trichotomy i j with h | h | h
    · exact key i j c d hi hj h hn hsc hsd hcd
    · subst h; rw [hi] at hj; cases hj; exact absurd rfl hcd
    · exact key j i d c hj hi h ((neighbours_comm _ _).1 hn) hsd hsc hcd.symm
  · intro c _ x hxb _ hup
    exact absurd hup (hx x hxb)

/-- The two upright boundary faces at the ends of a chain. -/
structure EndFaces (m : TMesh) (v : Nat) (L : List Nat) (p q : Nat) : Prop where
  pb : p ∈ m.vBnd v
  qb : q ∈ m.vBnd v
  ne : p ≠ q
  pu : Upright m v p
  qu : Upright m v q
  pl : ∀ c, L[L.length - 1]? = some c → Side m p c
  qh : ∀ c, L[0]? = some c → Side m q c
  only : ∀ i c x, L[i]? = some c → x ∈ m.vBnd v → Side m x c → Upright m v x →
    (x = p ∧ i + 1 = L.length) ∨ (x = q ∧ i = 0)

theorem levelRow_ended (ha : Around m v) {L : List Nat} (hL : ∀ c ∈ L, c ∈ m.vCells v)
    (hr : Chain m L) {p q : Nat} (h : EndFaces m v L p q) :
    LevelRow m v L (L.map Ent.cell ++ [p, q].map Ent.face) := by
  have hpos : 0 < L.length := List.length_pos_of_ne_nil hr.nonempty
  have hlen : (L.map Ent.cell ++ [p, q].map Ent.face).length = L.length + 2 := by simp
  have g1 : ∀ i, i < L.length → (L.map Ent.cell ++ [p, q].map Ent.face)[i]?
      = (L[i]?).map Ent.cell := by
    intro i hi
    rw [List.getElem?_append_left (by simpa using hi), List.getElem?_map]
  have g2 : (L.map Ent.cell ++ [p, q].map Ent.face)[L.length]? = some (.face p) := by
    rw [List.getElem?_append_right (by simp)]; simp
  have g3 : (L.map Ent.cell ++ [p, q].map Ent.face)[L.length + 1]? = some (.face q) := by
    rw [List.getElem?_append_right (by simp)]; simp
  obtain ⟨z, hz⟩ : ∃ z, L[L.length - 1]? = some z := ⟨_, List.getElem?_eq_getElem (by omega)⟩
  obtain ⟨y, hy⟩ : ∃ y, L[0]? = some y := ⟨_, List.getElem?_eq_getElem hpos⟩
  refine ⟨⟨[p, q], rfl, ?_⟩, ?_, by omega, ?_, ?_, ?_⟩
  · intro x hx
    simp at hx
    rcases hx with rfl | rfl
    · exact ⟨h.pb, h.pu, z, List.mem_of_getElem? hz, h.pl z hz⟩
    · exact ⟨h.qb, h.qu, y, List.mem_of_getElem? hy, h.qh y hy⟩
  · rw [List.nodup_append]
    refine ⟨List.Nodup.map (fun a b h => by cases h; rfl) hr.nodup, ?_, ?_⟩
    · simp [h.ne]
    · intro a ha' b hb hab
      obtain ⟨c, _, rfl⟩ := List.mem_map.1 ha'
      obtain ⟨x, _, rfl⟩ := List.mem_map.1 hb
      cases hab
  · intro i e e' he he' hnf
    have hi : i < L.length + 2 := by
      have := (List.getElem?_eq_some_iff.1 he).1; omega
    rw [hlen] at he'
    rcases Nat.lt_or_ge (i + 1) L.length with h1 | h1
    · rw [Nat.mod_eq_of_lt (by omega), g1 _ h1] at he'
      rw [g1 i (by omega)] at he
      simp only [Option.map_eq_some_iff] at he he'
      obtain ⟨c, hc, rfl⟩ := he
      obtain ⟨d, hd, rfl⟩ := he'
      exact joins_cells ha (hL c (List.mem_of_getElem? hc)) (hL d (List.mem_of_getElem? hd))
        (ne_of_getElem? hr.nodup hc hd (by omega))
        ((hr.next i (i + 1) c d (by omega) hc hd).2 rfl)
    · rcases Nat.lt_trichotomy (i + 1) (L.length + 1) with h2 | h2 | h2
      · have hil : i + 1 = L.length := by omega
        rw [Nat.mod_eq_of_lt (by omega), hil, g2] at he'
        rw [g1 i (by omega), show i = L.length - 1 by omega, hz] at he
        cases he; cases he'
        exact ⟨p, joins_bnd ha h.pb (h.pl z hz)⟩
      · rw [Nat.mod_eq_of_lt (by omega), h2, g3] at he'
        rw [show i = L.length by omega, g2] at he
        cases he; cases he'
        exact absurd ⟨trivial, trivial⟩ hnf
      · have hil : i = L.length + 1 := by omega
        rw [hil, Nat.mod_self, g1 0 hpos, hy] at he'
        rw [hil, g3] at he
        cases he; cases he'
        obtain ⟨a, b⟩ := joins_bnd ha h.qb (h.qh y hy)
        exact ⟨q, a, b.symm⟩
  · intro c hc d hd hcd x hxf hsc hsd
    have hn := neighbours_of_sides ha hxf hsc hsd
    obtain ⟨i, hi⟩ := List.mem_iff_getElem?.1 hc
    obtain ⟨j, hj⟩ := List.mem_iff_getElem?.1 hd
    have key : ∀ i j c d : Nat, L[i]? = some c → L[j]? = some d → i < j → Neighbours m c d →
        Side m x c → Side m x d → c ≠ d →
        ∃ k e e', (L.map Ent.cell ++ [p, q].map Ent.face)[k]? = some e ∧
          (L.map Ent.cell ++ [p, q].map Ent.face)[(k + 1)
            % (L.map Ent.cell ++ [p, q].map Ent.face).length]? = some e' ∧ JoinsE m x e e' := by
      intro i j c d hi hj hij hn hsc hsd hcd
      have hjl := (List.getElem?_eq_some_iff.1 hj).1
      have hji := (hr.next i j c d hij hi hj).1 hn
      refine ⟨i, .cell c, .cell d, by rw [g1 i (by omega), hi]; rfl, ?_,
        Or.inl ⟨c, d, hcd, hsc, hsd, rfl, rfl⟩⟩
      rw [hlen, Nat.mod_eq_of_lt (by omega), ← hji, g1 j hjl, hj]; rfl
    rcases Nat.lt_trichotomy i j with h' | h' | h'
    · exact key i j c d hi hj h' hn hsc hsd hcd
    · subst h'; rw [hi] at hj; cases hj; exact absurd rfl hcd
    · exact key j i d c hj hi h' ((neighbours_comm _ _).1 hn) hsd hsc hcd.symm
  · intro c hc x hxb hs hup
    obtain ⟨i, hi⟩ := List.mem_iff_getElem?.1 hc
    have hil := (List.getElem?_eq_some_iff.1 hi).1
    rcases h.only i c x hi hxb hs hup with ⟨rfl, h1⟩ | ⟨rfl, h1⟩
    · refine ⟨i, .cell c, .face x, by rw [g1 i hil, hi]; rfl, ?_, (joins_bnd ha hxb hs).2⟩
      rw [hlen, Nat.mod_eq_of_lt (by omega), h1, g2]
    · refine ⟨L.length + 1, .face x, .cell c, g3, ?_, (joins_bnd ha hxb hs).2.symm⟩
      rw [hlen, Nat.mod_self, g1 0 hpos, ← h1, hi]; rfl

/-! ### `ConvertCellsAntiClockwiseDirInTraversalDir` -/

theorem getLastD_eq {L : List Nat} {z : Nat} (h : L[L.length - 1]? = some z) : L.getLastD 0 = z := by
  cases L with
  | nil => simp at h
  | cons a l =>
    rw [List.getLastD_cons, ← List.getLast?_eq_getElem?] at *
    simp [List.getLast?_cons] at h
    simpa using h

theorem headD_eq {L : List Nat} {y : Nat} (h : L[0]? = some y) : L.headD 0 = y := by
  cases L with
  | nil => simp at h
  | cons a l => simpa using h

theorem convert_ring (hL : ∀ c ∈ L, c ∈ m.vCells v) (hr : Ring m L)
    (hx : ∀ x ∈ m.vBnd v, ¬ Upright m v x) :
    convert m v L = .ok (rowOf ((L.map Ent.cell).map (Ent.num m v))) := by
  have h3 := hr.three
  have hup : ∀ ii, ii < (m.vBnd v).length → upright m v (bndFace m v ii) = false := by
    intro ii hi
    rw [Bool.eq_false_iff]
    intro hu
    exact hx _ (bndFace_mem hi) ((upright_iff _).1 hu)
  unfold convert
  rw [if_neg (by omega), localCells_eq L hL]
  simp only [Out.bind]
  have hmap : (L.map Ent.cell).map (Ent.num m v) = L.map fun c => Ent.num m v (.cell c) := by
    simp [Function.comp_def]
  rw [hmap]
  by_cases hb : (m.vBnd v).length = 0
  · rw [if_pos hb]
  · rw [if_neg hb, if_pos (by omega)]
    congr 1
    unfold addTwo
    have f1 : (List.range (m.vBnd v).length).find? (fun ii =>
        owns m (L.getLastD 0) (bndFace m v ii) && upright m v (bndFace m v ii)) = none := by
      apply find_range_none
      intro j hj
      rw [hup j hj]; simp
    have f2 : (List.range (m.vBnd v).length).find? (fun ii => some ii != none &&
        (owns m (L.headD 0) (bndFace m v ii) && upright m v (bndFace m v ii))) = none := by
      apply find_range_none
      intro j hj
      rw [hup j hj]; simp
    simp only [f1, f2]

theorem convert_ended_two (ha : Around m v) {L : List Nat} (hL : ∀ c ∈ L, c ∈ m.vCells v)
    (h2 : 2 ≤ L.length) {p q : Nat} (h : EndFaces m v L p q) :
    convert m v L = .ok (rowOf ((L.map Ent.cell ++ [p, q].map Ent.face).map (Ent.num m v))) := by
  obtain ⟨z, hz⟩ : ∃ z, L[L.length - 1]? = some z := ⟨_, List.getElem?_eq_getElem (by omega)⟩
  obtain ⟨y, hy⟩ : ∃ y, L[0]? = some y := ⟨_, List.getElem?_eq_getElem (by omega)⟩
  have hpi := List.idxOf_lt_length_iff.2 h.pb
  have hqi := List.idxOf_lt_length_iff.2 h.qb
  unfold convert
  rw [if_neg (by omega), localCells_eq L hL]
  simp only [Out.bind]
  rw [if_neg (by omega), if_pos (by omega)]
  congr 1
  have f1 : (List.range (m.vBnd v).length).find? (fun ii =>
      owns m (L.getLastD 0) (bndFace m v ii) && upright m v (bndFace m v ii))
      = some ((m.vBnd v).idxOf p) := by
    rw [getLastD_eq hz]
    apply find_range hpi
    · rw [bndFace_idx h.pb, (owns_iff _ _).2 (h.pl z hz), (upright_iff _).2 h.pu]; rfl
    · intro j hj hP
      rw [Bool.and_eq_true, owns_iff, upright_iff] at hP
      rcases h.only (L.length - 1) z _ hz (bndFace_mem hj) hP.1 hP.2 with ⟨e, _⟩ | ⟨_, e⟩
      · rw [← e, idx_bndFace ha hj]
      · omega
  have f2 : (List.range (m.vBnd v).length).find? (fun ii =>
      some ii != some ((m.vBnd v).idxOf p) &&
        (owns m (L.headD 0) (bndFace m v ii) && upright m v (bndFace m v ii)))
      = some ((m.vBnd v).idxOf q) := by
    rw [headD_eq hy]
    apply find_range hqi
    · rw [bndFace_idx h.qb, (owns_iff _ _).2 (h.qh y hy), (upright_iff _).2 h.qu]
      have : (m.vBnd v).idxOf q ≠ (m.vBnd v).idxOf p := fun e => h.ne (idxOf_inj' h.qb h.pb e).symm
      simp [this]
    · intro j hj hP
      rw [Bool.and_eq_true, Bool.and_eq_true, owns_iff, upright_iff] at hP
      rcases h.only 0 y _ hy (bndFace_mem hj) hP.2.1 hP.2.2 with ⟨_, e⟩ | ⟨e, _⟩
      · omega
      · rw [← e, idx_bndFace ha hj]
  unfold addTwo
  simp only [f1, f2]
  have e1 := rowOf_append (L.map fun c => Ent.num m v (.cell c))
    ((m.vCells v).length + (m.vBnd v).idxOf p)
  have e2 := rowOf_append ((L.map fun c => Ent.num m v (.cell c))
    ++ [(m.vCells v).length + (m.vBnd v).idxOf p]) ((m.vCells v).length + (m.vBnd v).idxOf q)
  simp only [List.length_map, List.length_append, List.length_singleton] at e1 e2
  rw [e1, e2]
  simp [Function.comp_def, Ent.num]

theorem range_map_bndFace : (List.range (m.vBnd v).length).map (bndFace m v) = m.vBnd v := by
  apply List.ext_getElem
  · simp
  · intro i h1 h2
    simp [bndFace, List.getD_eq_getElem?_getD, List.getElem?_eq_getElem h2]

theorem convert_ended_one (ha : Around m v) {c : Nat} (hc : c ∈ m.vCells v)
    (hup : ∀ x ∈ m.vBnd v, Upright m v x) {p q : Nat} (h : uprightOf m v c = [p, q]) :
    ∃ p' q', (p' = p ∧ q' = q ∨ p' = q ∧ q' = p) ∧
      convert m v [c] = .ok (rowOf (([c].map Ent.cell ++ [p', q'].map Ent.face).map
        (Ent.num m v))) := by
  have hfil : ((List.range (m.vBnd v).length).filter fun ii => owns m c (bndFace m v ii)).map
      (bndFace m v) = [p, q] := by
    rw [← h]
    have e : uprightOf m v c = (m.vBnd v).filter fun x => owns m c x := by
      unfold uprightOf
      apply List.filter_congr
      intro x hx
      rw [Bool.eq_iff_iff, owns_iff]
      simp [hup x hx]
    rw [e]
    conv_rhs => rw [← range_map_bndFace (m := m) (v := v)]
    rw [List.filter_map]
    rfl
  have hlt : ∀ ii ∈ (List.range (m.vBnd v).length).filter (fun ii => owns m c (bndFace m v ii)),
      ii < (m.vBnd v).length := by
    intro ii hi
    exact List.mem_range.1 (List.mem_filter.1 hi).1
  have hidx : (List.range (m.vBnd v).length).filter (fun ii => owns m c (bndFace m v ii))
      = [(m.vBnd v).idxOf p, (m.vBnd v).idxOf q] := by
    cases hl : (List.range (m.vBnd v).length).filter (fun ii => owns m c (bndFace m v ii)) with
    | nil => rw [hl] at hfil; simp at hfil
    | cons a t =>
      cases t with
      | nil => rw [hl] at hfil; simp at hfil
      | cons b t =>
        cases t with
        | cons _ _ => rw [hl] at hfil; simp at hfil
        | nil =>
          rw [hl] at hfil hlt
          simp at hfil
          rw [← hfil.1, ← hfil.2, idx_bndFace ha (hlt a (by simp)), idx_bndFace ha (hlt b (by simp))]
  have hpos : (m.vBnd v).length ≠ 0 := by
    intro e
    rw [List.length_eq_zero_iff] at e
    simp [uprightOf, e] at h
  have hl1 := localCells_eq (m := m) (v := v) [c] (by simpa using hc)
  have hconv : convert m v [c] = .ok (addOne m v c (rowOf [Ent.num m v (.cell c)])) := by
    unfold convert
    rw [if_neg (by simp), hl1]
    simp only [Out.bind]
    rw [if_neg hpos, if_neg (by simp)]
    rfl
  have hw : ∀ a b : Nat, wr (wr (rowOf [Ent.num m v (.cell c)]) 1 (a : ℤ)) 2 (b : ℤ)
      = rowOf [Ent.num m v (.cell c), a, b] := by
    intro a b
    have e1 := rowOf_append [Ent.num m v (.cell c)] a
    have e2 := rowOf_append [Ent.num m v (.cell c), a] b
    simp only [List.length_cons, List.length_nil] at e1 e2
    rw [e1]
    exact e2
  rw [hconv]
  unfold addOne
  simp only [hidx]
  by_cases hac : antiClock (m.coord v) (m.cellCen c) (m.faceCen (bndFace m v ((m.vBnd v).idxOf p)))
  · refine ⟨p, q, Or.inl ⟨rfl, rfl⟩, ?_⟩
    rw [if_pos hac, hw]
    simp [Ent.num]
  · refine ⟨q, p, Or.inr ⟨rfl, rfl⟩, ?_⟩
    rw [if_neg hac, hw]
    simp [Ent.num]

theorem uprightOf_nodup (ha : Around m v) (c : Nat) : (uprightOf m v c).Nodup :=
  ha.bnd_nodup.filter _

/-- A chain with ends has its two end faces, and its row is cells, then these. -/
theorem convert_ended (ha : Around m v) {L : List Nat} (hL : ∀ c ∈ L, c ∈ m.vCells v)
    (h : Ended m v L) (h1 : L.length = 1 → ∀ x ∈ m.vBnd v, Upright m v x) :
    ∃ p q, EndFaces m v L p q ∧
      convert m v L = .ok (rowOf ((L.map Ent.cell ++ [p, q].map Ent.face).map (Ent.num m v))) := by
  have hpos : 0 < L.length := List.length_pos_of_ne_nil h.nonempty
  by_cases hl : L.length = 1
  · obtain ⟨c, rfl⟩ := List.length_eq_one_iff.1 hl
    have he := h.ends 0 c rfl
    simp at he
    obtain ⟨p, q, hpq⟩ : ∃ p q, uprightOf m v c = [p, q] := List.length_eq_two.1 he
    have hmem : ∀ x, x ∈ m.vBnd v ∧ Side m x c ∧ Upright m v x ↔ x = p ∨ x = q := by
      intro x; rw [← mem_uprightOf, hpq]; simp
    have hne : p ≠ q := by
      have := uprightOf_nodup ha c
      rw [hpq] at this
      simpa using this
    have hp := (hmem p).2 (Or.inl rfl)
    have hq := (hmem q).2 (Or.inr rfl)
    obtain ⟨p', q', hcase, hconv⟩ := convert_ended_one ha (hL c (by simp)) (h1 rfl) hpq
    refine ⟨p', q', ?_, hconv⟩
    have mk : ∀ a b : Nat, (∀ x, x ∈ m.vBnd v ∧ Side m x c ∧ Upright m v x ↔ x = a ∨ x = b) →
        a ≠ b → EndFaces m v [c] a b := by
      intro a b hm hab
      have hA := (hm a).2 (Or.inl rfl)
      have hB := (hm b).2 (Or.inr rfl)
      refine ⟨hA.1, hB.1, hab, hA.2.2, hB.2.2, ?_, ?_, ?_⟩
      · intro d hd; simp at hd; subst hd; exact hA.2.1
      · intro d hd; simp at hd; subst hd; exact hB.2.1
      · intro i d x hd hx hs hu
        have hi := (List.getElem?_eq_some_iff.1 hd).1
        simp at hi
        subst hi
        simp at hd
        subst hd
        rcases (hm x).1 ⟨hx, hs, hu⟩ with e | e
        · exact Or.inl ⟨e, rfl⟩
        · exact Or.inr ⟨e, rfl⟩
    rcases hcase with ⟨rfl, rfl⟩ | ⟨rfl, rfl⟩
    · exact mk _ _ hmem hne
    · exact mk _ _ (fun x => (hmem x).trans or_comm) hne.symm
  · have h2 : 2 ≤ L.length := by omega
    obtain ⟨z, hz⟩ : ∃ z, L[L.length - 1]? = some z := ⟨_, List.getElem?_eq_getElem (by omega)⟩
    obtain ⟨y, hy⟩ : ∃ y, L[0]? = some y := ⟨_, List.getElem?_eq_getElem hpos⟩
    have hzl := h.ends _ z hz
    rw [if_neg (by omega), if_pos (by omega)] at hzl
    have hyl := h.ends _ y hy
    rw [if_pos rfl, if_neg (by omega)] at hyl
    obtain ⟨p, hp⟩ := List.length_eq_one_iff.1 hzl
    obtain ⟨q, hq⟩ := List.length_eq_one_iff.1 hyl
    have hpm : ∀ x, x ∈ m.vBnd v ∧ Side m x z ∧ Upright m v x ↔ x = p := by
      intro x; rw [← mem_uprightOf, hp]; simp
    have hqm : ∀ x, x ∈ m.vBnd v ∧ Side m x y ∧ Upright m v x ↔ x = q := by
      intro x; rw [← mem_uprightOf, hq]; simp
    have hP := (hpm p).2 rfl
    have hQ := (hqm q).2 rfl
    have hne : p ≠ q := by
      rintro rfl
      exact ne_of_getElem? h.nodup hz hy (by omega) (bnd_side ha hP.1 hP.2.1 hQ.2.1)
    have hef : EndFaces m v L p q := by
      refine ⟨hP.1, hQ.1, hne, hP.2.2, hQ.2.2, ?_, ?_, ?_⟩
      · intro c hc; rw [hz] at hc; cases hc; exact hP.2.1
      · intro c hc; rw [hy] at hc; cases hc; exact hQ.2.1
      · intro i c x hc hx hs hu
        have hil := (List.getElem?_eq_some_iff.1 hc).1
        have he := h.ends i c hc
        have hin : 0 < (uprightOf m v c).length :=
          List.length_pos_of_mem ((mem_uprightOf c x).2 ⟨hx, hs, hu⟩)
        by_cases h0 : i = 0
        · subst h0
          rw [hy] at hc; cases hc
          exact Or.inr ⟨(hqm x).1 ⟨hx, hs, hu⟩, rfl⟩
        · by_cases h9 : i + 1 = L.length
          · have : i = L.length - 1 := by omega
            rw [this, hz] at hc; cases hc
            exact Or.inl ⟨(hpm x).1 ⟨hx, hs, hu⟩, h9⟩
          · rw [if_neg h0, if_neg h9] at he
            omega
    exact ⟨p, q, hef, convert_ended_two ha hL h2 hef⟩

/-! ### `AddUpDownBndFacesOfCellsInTraversalDirection` -/

theorem addFlat_eq : ∀ (cs : List Nat) (l : List Nat) (used : Nat → Bool) (φ : Nat → Nat),
    (∀ c ∈ cs, φ c < (m.vBnd v).length ∧ used (φ c) = false ∧ owns m c (bndFace m v (φ c)) = true ∧
      ∀ j < (m.vBnd v).length, used j = false → owns m c (bndFace m v j) = true → j = φ c) →
    (∀ c ∈ cs, ∀ d ∈ cs, φ c = φ d → c = d) → cs.Nodup →
    addFlat m v cs l.length used (rowOf l)
      = rowOf (l ++ cs.map fun c => (m.vCells v).length + φ c)
  | [], l, used, φ, _, _, _ => by simp [addFlat]
  | c :: cs, l, used, φ, h, hinj, hn => by
    obtain ⟨h1, h2, h3, h4⟩ := h c (by simp)
    have hf : (List.range (m.vBnd v).length).find?
        (fun jj => !used jj && owns m c (bndFace m v jj)) = some (φ c) := by
      apply find_range h1
      · rw [h2, h3]; rfl
      · intro j hj hP
        rw [Bool.and_eq_true] at hP
        exact h4 j hj (by simpa using hP.1) hP.2
    rw [List.nodup_cons] at hn
    have ih := addFlat_eq cs (l ++ [(m.vCells v).length + φ c]) (wr used (φ c) true) φ
      (by
        intro d hd
        obtain ⟨g1, g2, g3, g4⟩ := h d (List.mem_cons_of_mem _ hd)
        have hne : φ d ≠ φ c := by
          intro e
          have := hinj d (List.mem_cons_of_mem _ hd) c (by simp) e
          subst this
          exact hn.1 hd
        refine ⟨g1, by unfold wr; rw [if_neg hne]; exact g2, g3, ?_⟩
        intro j hj hu ho
        refine g4 j hj ?_ ho
        unfold wr at hu
        by_cases hjc : j = φ c
        · rw [if_pos hjc] at hu; simp at hu
        · rwa [if_neg hjc] at hu)
      (fun a ha b hb => hinj a (List.mem_cons_of_mem _ ha) b (List.mem_cons_of_mem _ hb)) hn.2
    simp only [addFlat, hf]
    have e := rowOf_append l ((m.vCells v).length + φ c)
    simp only [List.length_append, List.length_singleton] at ih
    rw [e, ih]
    simp

/-- The flat boundary face of a cell. -/
noncomputable def flatFace (m : TMesh) (v c : Nat) : Nat := (flatOf m v c).headD 0

theorem flatFace_spec {c : Nat} (h : (flatOf m v c).length = 1) :
    ∀ x, (x ∈ m.vBnd v ∧ Side m x c ∧ ¬ Upright m v x) ↔ x = flatFace m v c := by
  obtain ⟨y, hy⟩ := List.length_eq_one_iff.1 h
  intro x
  rw [← mem_flatOf]
  unfold flatFace
  rw [hy]
  simp

theorem rowOf_any (l : List Nat) (N k : Nat) (hN : l.length ≤ N) :
    ((List.range N).any fun i => rowOf l i == (k : ℤ)) = true ↔ k ∈ l := by
  rw [List.any_eq_true]
  constructor
  · rintro ⟨i, _, hi⟩
    rw [beq_iff_eq] at hi
    rcases Nat.lt_or_ge i l.length with h | h
    · rw [rowOf_lt h] at hi
      have : l.getD i 0 = k := by exact_mod_cast hi
      rw [← this, List.getD_eq_getElem?_getD, List.getElem?_eq_getElem h]
      exact List.getElem_mem h
    · rw [rowOf_ge h] at hi
      omega
  · intro hk
    obtain ⟨i, hi⟩ := List.mem_iff_getElem?.1 hk
    have hil := (List.getElem?_eq_some_iff.1 hi).1
    refine ⟨i, List.mem_range.2 (by omega), ?_⟩
    rw [rowOf_lt hil, List.getD_eq_getElem?_getD, hi]
    simp

theorem addUpDown_eq (ha : Around m v) {L : List Nat} {E : List Ent}
    (hL : ∀ c ∈ L, c ∈ m.vCells v) (hn : L.Nodup) (hrow : LevelRow m v L E)
    (hflat : ∀ c ∈ L, (flatOf m v c).length = 1) :
    addUpDown m v L (rowOf (E.map (Ent.num m v))) (rowOf [])
      = rowOf ((L.map fun c => Ent.face (flatFace m v c)).map (Ent.num m v)) := by
  have hok := hrow.ok hL
  have hlen := length_le_room hrow.nodup hok
  -- a face is marked exactly if it stands in the row
  have hused : ∀ x ∈ m.vBnd v, usedFaces m v (rowOf (E.map (Ent.num m v))) ((m.vBnd v).idxOf x) = true
      ↔ Ent.face x ∈ E := by
    intro x hx
    unfold usedFaces
    rw [rowOf_any _ _ _ (by simpa using hlen)]
    constructor
    · intro h
      obtain ⟨e, he, hen⟩ := List.mem_map.1 h
      have : e = Ent.face x := num_inj (hok e he) (by exact hx) (by rw [hen]; rfl)
      rwa [← this]
    · intro h
      exact List.mem_map.2 ⟨_, h, rfl⟩
  -- a boundary face of a cell of the level stands in the row exactly if it is upright
  have hin : ∀ c ∈ L, ∀ x ∈ m.vBnd v, Side m x c → (Ent.face x ∈ E ↔ Upright m v x) := by
    intro c hc x hx hs
    constructor
    · intro h
      obtain ⟨F, hE, hF⟩ := hrow.front
      rw [hE] at h
      rcases List.mem_append.1 h with h' | h'
      · obtain ⟨_, _, e⟩ := List.mem_map.1 h'; cases e
      · obtain ⟨y, hy, e⟩ := List.mem_map.1 h'
        cases e
        exact (hF _ hy).2.1
    · intro hu
      obtain ⟨i, e, e', h1, h2, hj⟩ := hrow.outer c hc x hx hs hu
      rcases hj with ⟨a, b, hab, hsa, hsb, _, _⟩ | ⟨_, d, _, hd⟩
      · exact absurd (bnd_side ha hx hsa hsb) hab
      · rcases hd with ⟨_, rfl⟩ | ⟨rfl, _⟩
        · exact List.mem_of_getElem? h2
        · exact List.mem_of_getElem? h1
  have := addFlat_eq (m := m) (v := v) L [] (usedFaces m v (rowOf (E.map (Ent.num m v))))
    (fun c => (m.vBnd v).idxOf (flatFace m v c)) ?_ ?_ hn
  · unfold addUpDown
    simp only [List.length_nil, List.nil_append] at this
    rw [this]
    simp [Function.comp_def, Ent.num]
  · intro c hc
    have hs := flatFace_spec (hflat c hc)
    have hf := (hs _).2 rfl
    refine ⟨List.idxOf_lt_length_iff.2 hf.1, ?_, ?_, ?_⟩
    · rw [Bool.eq_false_iff]
      intro hu
      exact hf.2.2 ((hin c hc _ hf.1 hf.2.1).1 ((hused _ hf.1).1 hu))
    · rw [bndFace_idx hf.1, owns_iff]; exact hf.2.1
    · intro j hj hu ho
      rw [owns_iff] at ho
      have hm := bndFace_mem hj
      have hnu : ¬ Upright m v (bndFace m v j) := by
        intro hup
        have := (hused _ hm).2 ((hin c hc _ hm ho).2 hup)
        rw [idx_bndFace ha hj, hu] at this
        simp at this
      rw [← (hs _).1 ⟨hm, ho, hnu⟩, idx_bndFace ha hj]
  · intro c hc d hd e
    have h1 := (flatFace_spec (hflat c hc) _).2 rfl
    have h2 := (flatFace_spec (hflat d hd) _).2 rfl
    have := idxOf_inj' h1.1 h2.1 e
    rw [this] at h1
    exact bnd_side ha h1.1 h1.2.1 h2.2.1

end TDy.Traverse.Proofs
