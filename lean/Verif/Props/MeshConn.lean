import Mathlib.Data.Nat.Find
import Mathlib.Tactic.IntervalCases
import Verif.Proofs.MeshConn

/-!
# C102: connectivity tables; C103: local entities; C104: order of the faces around a vertex
-/

namespace TDy.Mesh.Props

open TDy
open Spec
open Proofs

theorem entries_eq {α : Type} (a : Nat → α) (k : Nat) (l : List α) (hk : k = l.length)
    (h : ∀ j x, l[j]? = some x → a j = x) : entries a k = l := by
  subst hk
  unfold entries
  refine List.ext_getElem (by simp) ?_
  intro i h1 h2
  simp only [List.getElem_map, List.getElem_range]
  exact h i _ (List.getElem?_eq_getElem h2)

/-- The specification list contains exactly the incidences. -/
theorem mem_cellsAt (m : Plex) (n v c k : Nat) :
    (c, k) ∈ cellsAt m n v ↔ c < n ∧ (vertsOf (m.closure c))[k]? = some v := by
  unfold cellsAt occurrences
  simp only [List.mem_flatMap, List.mem_range, List.mem_map, List.mem_filter, decide_eq_true_eq,
    Prod.mk.injEq, Prod.exists, List.mem_zipIdx_iff_getElem?]
  constructor
  · rintro ⟨d, hd, w, i, ⟨h1, h2⟩, rfl, rfl⟩
    exact ⟨hd, by rw [← h2]; exact h1⟩
  · rintro ⟨hc, hk⟩
    exact ⟨c, hc, v, k, ⟨hk, rfl⟩, rfl, rfl⟩

/-- C102 (cells at a vertex).  When the connectivity has been built, the cells recorded at a vertex,
each with its subcell number, are the cells that have the vertex among their vertices, in increasing
order, each with the position at which it lists the vertex; and each cell's own list holds its
vertices in closure order. -/
theorem C102_vertex_cells (cap : Nat) (m : Plex) (s : Conn) (h : connectCells cap m = .ok s) :
    (∀ v, entries (fun j => (s.vCells v j, s.vSub v j)) (s.vNum v)
      = (cellsAt m m.nCells v).map (fun p => ((p.1 : Int), (p.2 : Int))))
    ∧ (∀ c < m.nCells, entries (s.cellVerts c) (vertsOf (m.closure c)).length
      = (vertsOf (m.closure c)).map (fun (v : Nat) => (v : Int)))
    ∧ (∀ c < m.nCells, entries (s.cellFaces c) (facesOf (m.closure c)).length
      = (facesOf (m.closure c)).map (fun (f : Nat) => (f : Int))) := by
  have hI := (between_all cap m).inv s h
  have hv0 : ∀ v, vInc m m.nCells [] v = cellsAt m m.nCells v := by
    intro v; simp [vInc, vertsOf, occurrences]
  refine ⟨?_, ?_, ?_⟩
  · intro v
    refine entries_eq _ _ _ (by rw [hI.vlen, hv0, List.length_map]) ?_
    intro j x hx
    rw [List.getElem?_map] at hx
    obtain ⟨p, hp, rfl⟩ := Option.map_eq_some_iff.1 hx
    have := hI.vcells v j p (by rw [hv0]; exact hp)
    rw [this.1, this.2]
  · intro c hc
    refine entries_eq _ _ _ (by rw [List.length_map]) ?_
    intro k x hx
    rw [List.getElem?_map] at hx
    obtain ⟨v, hv, rfl⟩ := Option.map_eq_some_iff.1 hx
    exact hI.cverts c k v (by simpa [cvInc, hc] using hv)
  · intro c hc
    refine entries_eq _ _ _ (by rw [List.length_map]) ?_
    intro k x hx
    rw [List.getElem?_map] at hx
    obtain ⟨v, hv, rfl⟩ := Option.map_eq_some_iff.1 hx
    exact hI.cfaces c k v (by simpa [cfInc, hc] using hv)

/-- C102 (as a relation).  Cell `c` is recorded at vertex `v` with subcell number `k` exactly if `v`
is vertex number `k` of cell `c`. -/
theorem C102_vertex_cells_iff (cap : Nat) (m : Plex) (s : Conn) (h : connectCells cap m = .ok s)
    (v c k : Nat) (hc : c < m.nCells) :
    (∃ j < s.vNum v, s.vCells v j = (c : Int) ∧ s.vSub v j = (k : Int))
      ↔ (vertsOf (m.closure c))[k]? = some v := by
  have hl := (C102_vertex_cells cap m s h).1 v
  have hm : ((c : Int), (k : Int)) ∈ entries (fun j => (s.vCells v j, s.vSub v j)) (s.vNum v)
      ↔ (c, k) ∈ cellsAt m m.nCells v := by
    rw [hl, List.mem_map]
    constructor
    · rintro ⟨⟨c', k'⟩, hp, he⟩
      simp only [Prod.mk.injEq, Nat.cast_inj] at he
      rw [← he.1, ← he.2]; exact hp
    · intro hp; exact ⟨(c, k), hp, rfl⟩
  have h2 := mem_cellsAt m m.nCells v c k
  rw [← hm] at h2
  unfold entries at h2
  simp only [List.mem_map, List.mem_range, Prod.mk.injEq] at h2
  rw [h2]
  exact ⟨fun h => h.2, fun h => ⟨hc, h⟩⟩

/-- C102 (capacity).  Building the connectivity succeeds exactly when no vertex has more cells than
the per-vertex capacity; otherwise an error is reported (no entry is written beyond the capacity). -/
theorem C102_capacity (cap : Nat) (m : Plex) :
    ((∀ v, (cellsAt m m.nCells v).length ≤ cap) → ∃ s, connectCells cap m = .ok s)
      ∧ ((∃ v, cap < (cellsAt m m.nCells v).length) → ∃ s, connectCells cap m = .err s) := by
  have hb := between_all cap m
  have hv0 : ∀ v, vInc m m.nCells [] v = cellsAt m m.nCells v := by
    intro v; simp [vInc, vertsOf, occurrences]
  refine ⟨fun h => hb.succeeds (fun v => by rw [hv0]; exact h v), ?_⟩
  rintro ⟨v, hv⟩
  cases hr : connectCells cap m with
  | ub => exact absurd hr hb.noUb
  | err s => exact ⟨s, rfl⟩
  | ok s =>
    exfalso
    have := (hb.inv s hr).vcap v
    rw [hv0] at this
    omega

/-- C102 (cells behind a face).  The cells recorded for a face are the first two cells that list it;
with at most two such cells (every conforming mesh) they are all of them. -/
theorem C102_face_cells (cap : Nat) (m : Plex) (s : Conn) (h : connectCells cap m = .ok s) (f : Nat) :
    entries (s.fCells f) (s.fNum f) = ((cellsBehind m m.nCells f).take 2).map (fun (c : Nat) => (c : Int))
      ∧ (∀ j, s.fNum f ≤ j → s.fCells f j = -1)
      ∧ ((cellsBehind m m.nCells f).length ≤ 2 →
          entries (s.fCells f) (s.fNum f) = (cellsBehind m m.nCells f).map (fun (c : Nat) => (c : Int))) := by
  have hI := (between_all cap m).inv s h
  have hf0 : fInc m m.nCells [] f = cellsBehind m m.nCells f := by simp [fInc, facesOf]
  have h1 : entries (s.fCells f) (s.fNum f)
      = ((cellsBehind m m.nCells f).take 2).map (fun (c : Nat) => (c : Int)) := by
    refine entries_eq _ _ _ (by rw [hI.fnum, hf0, List.length_map, List.length_take]) ?_
    intro j x hx
    rw [List.getElem?_map] at hx
    obtain ⟨c, hc, rfl⟩ := Option.map_eq_some_iff.1 hx
    have hj := lt_of_getElem? hc
    rw [List.length_take] at hj
    refine hI.fcells f j c (by omega) ?_
    rw [hf0]
    rwa [List.getElem?_take_of_lt (by omega)] at hc
  refine ⟨h1, ?_, ?_⟩
  · intro j hj
    rw [hI.fnum] at hj
    exact hI.ffree f j (by omega)
  · intro hle
    rw [h1, List.take_of_length_le hle]

/-- C102 (faces at a vertex).  The faces recorded at a vertex are the faces that have it as a corner,
each once and in increasing order, with the position of the vertex in the face; the boundary faces
recorded at it are those of them that do not separate two cells; and each face's own list holds its
corners in closure order. -/
theorem C102_vertex_faces (m : Plex) (hnd : ∀ f < m.nFaces, (m.faceVerts f).Nodup) :
    (∀ v, entries (fun j => ((connectFaces m).vFaces v j, (connectFaces m).vSubfaces v j))
        ((connectFaces m).vNumFaces v)
      = (facesAt m m.nFaces v).map (fun (f : Nat) => ((f : Int), (((m.faceVerts f).idxOf v : Nat) : Int))))
    ∧ (∀ v, entries ((connectFaces m).vB v) ((connectFaces m).vNumB v)
      = (boundaryAt m m.nFaces v).map (fun (f : Nat) => (f : Int)))
    ∧ (∀ f < m.nFaces, entries ((connectFaces m).fVerts f) ((connectFaces m).fNumVerts f)
      = (m.faceVerts f).map (fun (v : Nat) => (v : Int)))
    ∧ (∀ f < m.nFaces, (connectFaces m).internal f = decide (m.supportSize f = 2)) := by
  obtain ⟨hI, hint⟩ := facesAll_inv m hnd
  have hv0 : ∀ v, vfInc m m.nFaces [] v
      = (facesAt m m.nFaces v).map (fun f => (f, (m.faceVerts f).idxOf v)) := by
    intro v; simp [vfInc]
  refine ⟨?_, ?_, ?_, hint⟩
  · intro v
    refine entries_eq _ _ _ (by rw [hI.vlen, hv0, List.length_map, List.length_map]) ?_
    intro j x hx
    rw [List.getElem?_map] at hx
    obtain ⟨f, hf, rfl⟩ := Option.map_eq_some_iff.1 hx
    have := hI.vfaces v j (f, (m.faceVerts f).idxOf v) (by rw [hv0, List.getElem?_map, hf]; rfl)
    rw [this.1, this.2]
  · intro v
    refine entries_eq _ _ _ (by rw [hI.blen, List.length_map]) ?_
    intro j x hx
    rw [List.getElem?_map] at hx
    obtain ⟨f, hf, rfl⟩ := Option.map_eq_some_iff.1 hx
    exact hI.bfaces v j f hf
  · intro f hf
    refine entries_eq _ _ _ (by rw [hI.flen, List.length_map]; simp [fvInc, hf]) ?_
    intro k x hx
    rw [List.getElem?_map] at hx
    obtain ⟨v, hv, rfl⟩ := Option.map_eq_some_iff.1 hx
    exact hI.fverts f k v (by simpa [fvInc, hf] using hv)

/-! ## C103 -/

/-- C103 (vertices).  A vertex is local exactly if some cell that has it as a vertex is local. -/
theorem C103_vertex_local (cap : Nat) (m : Plex) (s : Conn) (h : connectCells cap m = .ok s)
    (cellLocal : Nat → Bool) (v : Nat) :
    vertexLocal s cellLocal v = true
      ↔ ∃ c < m.nCells, v ∈ vertsOf (m.closure c) ∧ cellLocal c = true := by
  have key : ∀ n, forN n (fun c b => if 0 ≤ s.vCells v c ∧ cellLocal (s.vCells v c).toNat = true
        then true else b) false = true
      ↔ ∃ j < n, 0 ≤ s.vCells v j ∧ cellLocal (s.vCells v j).toNat = true := by
    intro n
    induction n with
    | zero => simp [forN]
    | succ n ih =>
      simp only [forN]
      by_cases hn : 0 ≤ s.vCells v n ∧ cellLocal (s.vCells v n).toNat = true
      · rw [if_pos hn]
        exact ⟨fun _ => ⟨n, by omega, hn⟩, fun _ => rfl⟩
      · rw [if_neg hn, ih]
        constructor
        · rintro ⟨j, hj, hp⟩; exact ⟨j, by omega, hp⟩
        · rintro ⟨j, hj, hp⟩
          refine ⟨j, ?_, hp⟩
          rcases Nat.lt_succ_iff_lt_or_eq.1 hj with h' | h'
          · exact h'
          · rw [h'] at hp; exact absurd hp hn
  unfold vertexLocal
  rw [key]
  have hl := (C102_vertex_cells cap m s h).1 v
  constructor
  · rintro ⟨j, hj, h0, hloc⟩
    have hmem : (s.vCells v j, s.vSub v j)
        ∈ entries (fun j => (s.vCells v j, s.vSub v j)) (s.vNum v) :=
      List.mem_map.2 ⟨j, List.mem_range.2 hj, rfl⟩
    rw [hl, List.mem_map] at hmem
    obtain ⟨⟨c, k⟩, hp, he⟩ := hmem
    simp only [Prod.mk.injEq] at he
    obtain ⟨hc, hk⟩ := (mem_cellsAt m m.nCells v c k).1 hp
    refine ⟨c, hc, List.mem_of_getElem? hk, ?_⟩
    rw [← he.1] at hloc
    simpa using hloc
  · rintro ⟨c, hc, hv, hloc⟩
    obtain ⟨k, hk⟩ := List.mem_iff_getElem?.1 hv
    obtain ⟨j, hj, h1, _⟩ := (C102_vertex_cells_iff cap m s h v c k hc).2 hk
    refine ⟨j, hj, by rw [h1]; omega, ?_⟩
    rw [h1]
    simpa using hloc

/-- What IdentifyLocalFaces should leave for one face. -/
def FaceDone (internal cellLocal : Nat → Bool) (before : Nat → Nat → Int) (after : LocalFaces)
    (f : Nat) : Prop :=
  if internal f then
    after.fCells f 0 = before f 0 ∧ after.fCells f 1 = before f 1
      ∧ (after.isLocal f = true ↔ cellLocal (before f 0).toNat = true ∨ cellLocal (before f 1).toNat = true)
  else
    after.fCells f 0 = before f 0 ∧ after.fCells f 1 = -((boundaryBefore internal f : Int) + 1)
      ∧ (after.isLocal f = true ↔ cellLocal (before f 0).toNat = true)

theorem boundaryBefore_succ (internal : Nat → Bool) (f : Nat) :
    boundaryBefore internal (f + 1) = boundaryBefore internal f + (if internal f then 0 else 1) := by
  unfold boundaryBefore
  rw [List.range_succ, List.filter_append, List.length_append]
  cases h : internal f <;> simp [h]

theorem boundaryBefore_mono (internal : Nat → Bool) {f g : Nat} (h : f ≤ g) :
    boundaryBefore internal f ≤ boundaryBefore internal g := by
  induction g with
  | zero => rw [Nat.le_zero.1 h]
  | succ g ih =>
    rcases Nat.lt_or_ge f (g + 1) with h' | h'
    · rw [boundaryBefore_succ]
      have := ih (by omega)
      omega
    · rw [show f = g + 1 by omega]

/-- C103 (faces).  An internal face is local exactly if one of its two cells is, and keeps its cells;
a boundary face is local exactly if its cell is, keeps its cell, and its empty side gets the number
`-(k+1)`, `k` being the number of boundary faces before it. -/
theorem C103_face_local (n : Nat) (internal cellLocal : Nat → Bool) (fCells : Nat → Nat → Int)
    (hcell : ∀ f < n, 0 ≤ fCells f 0) :
    (∀ f < n, FaceDone internal cellLocal fCells (localFaces n internal cellLocal fCells) f)
      ∧ (localFaces n internal cellLocal fCells).numBoundary = boundaryBefore internal n := by
  have key := forN_invariant n (localFaceStep internal cellLocal) ⟨fCells, fun _ => false, 0⟩
    (fun k s => (∀ f < k, FaceDone internal cellLocal fCells s f)
      ∧ s.numBoundary = boundaryBefore internal k
      ∧ (∀ f, k ≤ f → s.isLocal f = false ∧ ∀ j, s.fCells f j = fCells f j))
    ⟨fun f hf => by omega, rfl, fun f _ => ⟨rfl, fun _ => rfl⟩⟩
    (by
      rintro k s hk ⟨hdone, hnum, hrest⟩
      have hk0 := (hrest k (le_refl k)).2 0
      have hk1 := (hrest k (le_refl k)).2 1
      have hl := (hrest k (le_refl k)).1
      have hpos := hcell k hk
      unfold localFaceStep
      by_cases hi : internal k = true
      · rw [if_neg (by simp [hi])]
        refine ⟨?_, ?_, ?_⟩
        · intro f hf
          by_cases hfk : f = k
          · subst hfk
            unfold FaceDone
            rw [if_pos hi]
            refine ⟨hk0, hk1, ?_⟩
            simp only [hk0, hk1]
            by_cases hor : cellLocal (fCells f 0).toNat = true ∨ cellLocal (fCells f 1).toNat = true
            · rw [if_pos hor, wr_same]; simp [hor]
            · rw [if_neg hor, hl]; simp [hor]
          · have hd := hdone f (by omega)
            unfold FaceDone at hd ⊢
            have hloc : (if cellLocal (s.fCells k 0).toNat = true ∨ cellLocal (s.fCells k 1).toNat = true
                then wr s.isLocal k true else s.isLocal) f = s.isLocal f := by
              split
              · exact wr_other _ _ hfk
              · rfl
            simp only [hloc]
            exact hd
        · simp only []
          rw [boundaryBefore_succ, if_pos hi, hnum]; rfl
        · intro f hf
          refine ⟨?_, (hrest f (by omega)).2⟩
          simp only []
          split
          · rw [wr_other _ _ (by omega)]; exact (hrest f (by omega)).1
          · exact (hrest f (by omega)).1
      · have hi' : internal k = false := by simpa using hi
        rw [if_pos hi']
        simp only []
        rw [if_pos (show 0 ≤ s.fCells k 0 by rw [hk0]; exact hpos)]
        refine ⟨?_, ?_, ?_⟩
        · intro f hf
          by_cases hfk : f = k
          · subst hfk
            unfold FaceDone
            rw [if_neg hi]
            refine ⟨?_, ?_, ?_⟩
            · simp only []
              rw [wr2_other _ _ (by omega), hk0]
            · simp only []
              rw [wr2_same, hnum]
              push_cast
              rfl
            · simp only [hk0]
              by_cases hc : cellLocal (fCells f 0).toNat = true
              · rw [if_pos hc, wr_same]; simp [hc]
              · rw [if_neg hc, hl]; simp [hc]
          · have hd := hdone f (by omega)
            unfold FaceDone at hd ⊢
            have hloc : (if cellLocal (s.fCells k 0).toNat = true
                then wr s.isLocal k true else s.isLocal) f = s.isLocal f := by
              split
              · exact wr_other _ _ hfk
              · rfl
            simp only [hloc]
            rw [wr2_other _ _ (by tauto), wr2_other _ _ (by tauto)]
            exact hd
        · simp only []
          rw [boundaryBefore_succ, if_neg hi, hnum]
        · intro f hf
          refine ⟨?_, ?_⟩
          · simp only []
            split
            · rw [wr_other _ _ (by omega)]; exact (hrest f (by omega)).1
            · exact (hrest f (by omega)).1
          · intro j
            simp only []
            rw [wr2_other _ _ (by omega)]
            exact (hrest f (by omega)).2 j)
  exact ⟨key.1, key.2.1⟩

/-- C103 (boundary numbers).  The numbers given to the boundary faces are -1, -2, ..., each used
once: two boundary faces never share one, and all lie between -1 and minus their count. -/
theorem C103_boundary_numbers (n : Nat) (internal cellLocal : Nat → Bool) (fCells : Nat → Nat → Int)
    (hcell : ∀ f < n, 0 ≤ fCells f 0) (f g : Nat) (hf : f < n) (hg : g < n)
    (hfb : internal f = false) (hgb : internal g = false) :
    ((localFaces n internal cellLocal fCells).fCells f 1
        = (localFaces n internal cellLocal fCells).fCells g 1 → f = g)
      ∧ -((localFaces n internal cellLocal fCells).numBoundary : Int)
          ≤ (localFaces n internal cellLocal fCells).fCells f 1
      ∧ (localFaces n internal cellLocal fCells).fCells f 1 ≤ -1 := by
  obtain ⟨hdone, hnum⟩ := C103_face_local n internal cellLocal fCells hcell
  have h1 := hdone f hf
  have h2 := hdone g hg
  unfold FaceDone at h1 h2
  rw [if_neg (by simp [hfb])] at h1
  rw [if_neg (by simp [hgb])] at h2
  rw [h1.2.1, h2.2.1, hnum]
  have hlt : ∀ a b, a < b → internal a = false → boundaryBefore internal a < boundaryBefore internal b := by
    intro a b hab ha
    have := boundaryBefore_mono internal (show a + 1 ≤ b by omega)
    rw [boundaryBefore_succ, ha] at this
    simp at this
    omega
  refine ⟨?_, ?_, by omega⟩
  · intro he
    rcases Nat.lt_trichotomy f g with h | h | h
    · have := hlt f g h hfb; omega
    · exact h
    · have := hlt g f h hgb; omega
  · have := hlt f n hf hfb
    omega

/-! ## C104 -/

theorem selectFaces_spec (numCells : Int → Nat) (want n : Nat) (faces subs : Nat → Int)
    (s : SortState) (l : List (Int × Int)) (hs : s.count = l.length)
    (hl : ∀ (j : Nat) (p : Int × Int), l[j]? = some p → s.faces j = p.1 ∧ s.subs j = p.2) :
    let r := selectFaces numCells want n faces subs s
    let l' := l ++ (entries (fun i => (faces i, subs i)) n).filter
      (fun p => decide (numCells p.1 = want))
    r.count = l'.length ∧ ∀ (j : Nat) (p : Int × Int), l'[j]? = some p → r.faces j = p.1 ∧ r.subs j = p.2 := by
  unfold selectFaces
  induction n with
  | zero =>
    have he : entries (fun i => (faces i, subs i)) 0 = [] := rfl
    rw [he, List.filter_nil, List.append_nil]
    exact ⟨hs, hl⟩
  | succ n ih =>
    obtain ⟨h1, h2⟩ := ih
    simp only [forN]
    have he : entries (fun i => (faces i, subs i)) (n + 1)
        = entries (fun i => (faces i, subs i)) n ++ [(faces n, subs n)] := by
      unfold entries; rw [List.range_succ, List.map_append]; rfl
    rw [he, List.filter_append, ← List.append_assoc]
    by_cases hn : numCells (faces n) = want
    · rw [if_pos hn]
      have hf : [(faces n, subs n)].filter (fun p => decide (numCells p.1 = want))
          = [(faces n, subs n)] := by simp [hn]
      rw [hf]
      refine ⟨by simp only [List.length_append, List.length_singleton] at h1 ⊢; omega, ?_⟩
      intro j p hp
      rcases getElem?_snoc _ _ _ _ hp with ⟨e1, e2⟩ | e1
      · subst e1; subst e2
        simp only []
        rw [← h1, wr_same, wr_same]
        exact ⟨rfl, rfl⟩
      · have hj := lt_of_getElem? e1
        simp only []
        rw [wr_other _ _ (by omega), wr_other _ _ (by omega)]
        exact h2 j p e1
    · rw [if_neg hn]
      have hf : [(faces n, subs n)].filter (fun p => decide (numCells p.1 = want)) = [] := by
        simp [hn]
      rw [hf, List.append_nil]
      exact ⟨h1, h2⟩

/-- C104.  Reordering the faces around a vertex puts the faces between two cells first and the
boundary faces after them, keeps the order inside each group, loses and duplicates nothing, and
keeps every face together with its subface.  The uninitialised scratch arrays do not matter. -/
theorem C104_reorder (numCells : Int → Nat) (n : Nat) (faces subs junk junk' : Nat → Int)
    (h : ∀ i < n, numCells (faces i) = 2 ∨ numCells (faces i) = 1) :
    entries (fun i => ((reorderFaces numCells n faces subs junk junk').1 i,
        (reorderFaces numCells n faces subs junk junk').2 i)) n
      = (entries (fun i => (faces i, subs i)) n).filter (fun p => decide (numCells p.1 = 2))
        ++ (entries (fun i => (faces i, subs i)) n).filter (fun p => decide (numCells p.1 = 1))
    ∧ (∀ i, n ≤ i → (reorderFaces numCells n faces subs junk junk').1 i = faces i
        ∧ (reorderFaces numCells n faces subs junk junk').2 i = subs i)
    ∧ (entries (fun i => ((reorderFaces numCells n faces subs junk junk').1 i,
        (reorderFaces numCells n faces subs junk junk').2 i)) n).Perm
          (entries (fun i => (faces i, subs i)) n) := by
  have hlen : ((entries (fun i => (faces i, subs i)) n).filter (fun p => decide (numCells p.1 = 2))
        ++ (entries (fun i => (faces i, subs i)) n).filter
            (fun p => decide (numCells p.1 = 1))).Perm (entries (fun i => (faces i, subs i)) n) := by
    have h1 : ∀ p ∈ entries (fun i => (faces i, subs i)) n,
        decide (numCells p.1 = 1) = !decide (numCells p.1 = 2) := by
      intro p hp
      obtain ⟨i, hi, rfl⟩ := List.mem_map.1 hp
      rcases h i (List.mem_range.1 hi) with e | e <;> simp [e]
    rw [List.filter_congr h1]
    exact List.filter_append_perm _ _
  have h0 := selectFaces_spec numCells 2 n faces subs ⟨junk, junk', 0⟩ [] rfl (by simp)
  have h1 := selectFaces_spec numCells 1 n faces subs _ _ h0.1 h0.2
  simp only [List.nil_append] at h1
  have hmain : entries (fun i => ((reorderFaces numCells n faces subs junk junk').1 i,
        (reorderFaces numCells n faces subs junk junk').2 i)) n
      = (entries (fun i => (faces i, subs i)) n).filter (fun p => decide (numCells p.1 = 2))
        ++ (entries (fun i => (faces i, subs i)) n).filter (fun p => decide (numCells p.1 = 1)) := by
    refine entries_eq _ _ _ ?_ ?_
    · rw [hlen.length_eq]; simp [entries]
    · intro j p hp
      have hj : j < n := by
        have := lt_of_getElem? hp
        rw [hlen.length_eq] at this
        simpa [entries] using this
      have h2 := h1.2 j p hp
      simp only [reorderFaces]
      rw [forN_fill n (fun i => (selectFaces numCells 1 n faces subs
          (selectFaces numCells 2 n faces subs ⟨junk, junk', 0⟩)).faces i),
        forN_fill n (fun i => (selectFaces numCells 1 n faces subs
          (selectFaces numCells 2 n faces subs ⟨junk, junk', 0⟩)).subs i), if_pos hj, if_pos hj,
        h2.1, h2.2]
  refine ⟨hmain, ?_, by rw [hmain]; exact hlen⟩
  intro i hi
  simp only [reorderFaces]
  rw [forN_fill n (fun i => (selectFaces numCells 1 n faces subs
      (selectFaces numCells 2 n faces subs ⟨junk, junk', 0⟩)).faces i),
    forN_fill n (fun i => (selectFaces numCells 1 n faces subs
      (selectFaces numCells 2 n faces subs ⟨junk, junk', 0⟩)).subs i), if_neg (by omega),
    if_neg (by omega)]
  exact ⟨rfl, rfl⟩

/-! Non-vacuity: two tetrahedra that share a face. -/

namespace ConnWitness

/-- Cells 0 = (0,1,2,3) and 1 = (1,2,3,4), faces 0..6, face 3 = (1,2,3) in common. -/
def closure : Nat → List Point
  | 0 => [.cell 0, .face 0, .face 1, .face 2, .face 3, .edge 0, .vertex 0, .vertex 1, .vertex 2,
      .vertex 3]
  | _ => [.cell 1, .face 3, .face 4, .face 5, .face 6, .edge 1, .vertex 1, .vertex 2, .vertex 3,
      .vertex 4]

/-- The corners of the faces. -/
def faceVerts : Nat → List Nat
  | 0 => [0, 1, 2]
  | 1 => [0, 1, 3]
  | 2 => [0, 2, 3]
  | 3 => [1, 2, 3]
  | 4 => [1, 2, 4]
  | 5 => [1, 3, 4]
  | _ => [2, 3, 4]

/-- The mesh. -/
def m : Plex := ⟨2, 7, closure, faceVerts, fun f => if f = 3 then 2 else 1⟩

example : cellsAt m 2 3 = [(0, 3), (1, 2)] := by decide
example : cellsBehind m 2 3 = [0, 1] := by decide
example : facesAt m 7 4 = [4, 5, 6] := by decide
example : boundaryAt m 7 1 = [0, 1, 4, 5] := by decide

/-- The run succeeds with room for two cells per vertex and is refused with room for one. -/
example : ∃ s, connectCells 2 m = .ok s ∧ s.vNum 3 = 2 ∧ s.vSub 3 1 = 2 ∧ s.fNum 3 = 2 :=
  ⟨_, rfl, by decide, by decide, by decide⟩

example : ∃ s, connectCells 1 m = .err s := ⟨_, rfl⟩

example : ∀ f < m.nFaces, (m.faceVerts f).Nodup := by
  intro f hf
  have : f < 7 := hf
  interval_cases f <;> decide

example : (connectFaces m).vNumFaces 4 = 3 ∧ (connectFaces m).vSubfaces 4 1 = 2 := by decide

/-- Cell 0 is owned, cell 1 is a ghost: vertex 4 is not local, vertex 3 is. -/
def loc : Nat → Bool := fun c => c == 0

example : ∃ s, connectCells 2 m = .ok s ∧ vertexLocal s loc 3 = true ∧ vertexLocal s loc 4 = false :=
  ⟨_, rfl, by decide, by decide⟩

/-- Faces: the cells of the seven faces; boundary numbers skip face 3. -/
def fc : Nat → Nat → Int := fun f j =>
  if f = 3 then (if j = 0 then 0 else 1) else if j = 0 then (if f < 3 then 0 else 1) else -1

example : (localFaces 7 (fun f => f == 3) loc fc).fCells 4 1 = -4
    ∧ (localFaces 7 (fun f => f == 3) loc fc).isLocal 4 = false
    ∧ (localFaces 7 (fun f => f == 3) loc fc).isLocal 3 = true := by decide

/-- Faces 5, 6, 7, 8 of which 6 and 8 are internal: the order becomes 6, 8, 5, 7. -/
def r : (Nat → Int) × (Nat → Int) :=
  reorderFaces (fun f => if f = 6 ∨ f = 8 then 2 else 1) 4 (fun i => 5 + (i : Int))
    (fun i => 10 * (i : Int)) (fun _ => 99) (fun _ => 99)

example : (List.range 4).map r.1 = [6, 8, 5, 7] ∧ (List.range 4).map r.2 = [10, 30, 0, 20] := by decide

end ConnWitness

end TDy.Mesh.Props
