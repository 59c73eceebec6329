import Verif.Spec.MpfaoReorder
import Verif.Spec.MpfaoParallel
import Verif.Props.MpfaoTrans

/-!
# C187: transmissibilities do not depend on the order in which a mesh is listed
-/

namespace TDy.Mpfao.Props

open TDy.Mpfao TDy.Mpfao.Spec TDy.Mpfao.Proofs Finset

noncomputable section

/-- The sign of the flux through face `x`: -1 where the sides are named the other way round. -/
def turned (turn : Nat → Bool) (x : Nat) : ℝ := if turn x then -1 else 1

theorem turned_ne (turn : Nat → Bool) (x : Nat) : turned turn x ≠ 0 := by
  unfold turned; split <;> norm_num

section
variable {v v' : Vtx} {cell : Nat → Nat} {sub : Nat → Nat → Nat} {face : Nat → Nat}
  {turn : Nat → Bool}

theorem relisted_range (h : Relisted v v' cell sub face turn) {i f : Nat} (hr : InRange v i f) :
    InRange v' (cell i) (sub i f) :=
  ⟨by rw [h.npcen]; exact h.cellLt i hr.1, h.subLt i f hr⟩

theorem relisted_onto (h : Relisted v v' cell sub face turn) {i' f' : Nat}
    (hr : InRange v' i' f') : ∃ i f, InRange v i f ∧ cell i = i' ∧ sub i f = f' := by
  have im : (range v.npcen).image cell = range v.npcen := by
    apply eq_of_subset_of_card_le
    · intro x hx
      obtain ⟨i, hi, rfl⟩ := mem_image.1 hx
      exact mem_range.2 (h.cellLt i (mem_range.1 hi))
    · rw [card_image_of_injOn]
      intro i hi i' hi' e
      exact h.cellInj i (mem_range.1 hi) i' (mem_range.1 hi') e
  have hi' : i' ∈ range v.npcen := mem_range.2 (by rw [← h.npcen]; exact hr.1)
  rw [← im] at hi'
  obtain ⟨i, hi, ei⟩ := mem_image.1 hi'
  have hi := mem_range.1 hi
  have im3 : (range 3).image (sub i) = range 3 := by
    apply eq_of_subset_of_card_le
    · intro x hx
      obtain ⟨f, hf, rfl⟩ := mem_image.1 hx
      exact mem_range.2 (h.subLt i f ⟨hi, mem_range.1 hf⟩)
    · rw [card_image_of_injOn]
      intro f hf f' hf' e
      exact h.subInj i f f' ⟨hi, mem_range.1 hf⟩ ⟨hi, mem_range.1 hf'⟩ e
  have hf' : f' ∈ range 3 := mem_range.2 hr.2
  rw [← im3] at hf'
  obtain ⟨f, hf, ef⟩ := mem_image.1 hf'
  exact ⟨i, f, ⟨hi, mem_range.1 hf⟩, ei, ef⟩

/-- The flux seen from inside a subcell. -/
theorem oneSided_relisted (h : Relisted v v' cell sub face turn) {i f : Nat}
    (hr : InRange v i f) (u : ℝ) (p p' : Nat → ℝ)
    (hp : ∀ i f, InRange v i f → p' (face ((v.sub i).face f)) = p ((v.sub i).face f)) :
    oneSided (v'.sub (cell i)) u p' (sub i f) =
      turned turn ((v.sub i).face f)*oneSided (v.sub i) u p f := by
  have im3 : (range 3).image (sub i) = range 3 := by
    apply eq_of_subset_of_card_le
    · intro x hx
      obtain ⟨f, hf, rfl⟩ := mem_image.1 hx
      exact mem_range.2 (h.subLt i f ⟨hr.1, mem_range.1 hf⟩)
    · rw [card_image_of_injOn]
      intro f hf f' hf' e
      exact h.subInj i f f' ⟨hr.1, mem_range.1 hf⟩ ⟨hr.1, mem_range.1 hf'⟩ e
  unfold oneSided
  rw [← im3, sum_image, mul_sum, im3]
  · refine sum_congr rfl fun k hk => ?_
    have hk' : InRange v i k := ⟨hr.1, mem_range.1 hk⟩
    rw [h.G i f k hr hk', h.faces i k hk', hp i k hk']
    unfold turned
    ring
  · intro f hf f' hf' e
    exact h.subInj i f f' ⟨hr.1, mem_range.1 hf⟩ ⟨hr.1, mem_range.1 hf'⟩ e

/-- Face pressures that are right for one list are right for the other. -/
theorem balanced_relisted (h : Relisted v v' cell sub face turn) {u pb u' pb' : Nat → ℝ}
    (hs : SamePressures v v' cell sub u pb u' pb') (p p' : Nat → ℝ)
    (hp : ∀ i f, InRange v i f → p' (face ((v.sub i).face f)) = p ((v.sub i).face f)) :
    Balanced v' u' pb' p' ↔ Balanced v u pb p := by
  constructor
  · intro b
    constructor
    · intro i f i' f' hr hr' hi e
      have t := b.continuous (cell i) (sub i f) (cell i') (sub i' f') (relisted_range h hr)
        (relisted_range h hr') (by rw [h.internal i f hr]; exact hi)
        (by rw [h.faces i f hr, h.faces i' f' hr', e])
      rw [hs.cells i hr.1, hs.cells i' hr'.1, oneSided_relisted h hr (u i) p p' hp,
        oneSided_relisted h hr' (u i') p p' hp, e] at t
      exact mul_left_cancel₀ (turned_ne turn _) t
    · intro i f hr hi
      have t := b.boundary (cell i) (sub i f) (relisted_range h hr)
        (by rw [h.internal i f hr]; exact hi)
      rw [h.dirichlet] at t
      split at t
      · rename_i hd
        rw [if_pos hd]
        rw [h.faces i f hr, hp i f hr, hs.bnds i f hr hi] at t
        exact t
      · rename_i hd
        rw [if_neg hd]
        rw [hs.cells i hr.1, oneSided_relisted h hr (u i) p p' hp] at t
        exact (mul_eq_zero.1 t).resolve_left (turned_ne turn _)
  · intro b
    constructor
    · intro j g j' g' hr hr' hi e
      obtain ⟨i, f, k, rfl, rfl⟩ := relisted_onto h hr
      obtain ⟨i', f', k', rfl, rfl⟩ := relisted_onto h hr'
      rw [h.internal i f k] at hi
      rw [h.faces i f k, h.faces i' f' k'] at e
      have e' := h.faceInj i f i' f' k k' e
      rw [hs.cells i k.1, hs.cells i' k'.1, oneSided_relisted h k (u i) p p' hp,
        oneSided_relisted h k' (u i') p p' hp, e', b.continuous i f i' f' k k' hi e']
    · intro j g hr hi
      obtain ⟨i, f, k, rfl, rfl⟩ := relisted_onto h hr
      rw [h.internal i f k] at hi
      have t := b.boundary i f k hi
      rw [h.dirichlet]
      split at t
      · rename_i hd
        rw [if_pos hd, h.faces i f k, hp i f k, hs.bnds i f k hi]
        exact t
      · rename_i hd
        rw [if_neg hd, hs.cells i k.1, oneSided_relisted h k (u i) p p' hp, t, mul_zero]

/-- Face pressures of one list as those of the other. -/
theorem relist_pressures (h : Relisted v v' cell sub face turn) (p : Nat → ℝ) :
    ∃ p' : Nat → ℝ, ∀ i f, InRange v i f →
      p' (face ((v.sub i).face f)) = p ((v.sub i).face f) := by
  classical
  refine ⟨fun x' => if hx : ∃ a : Nat × Nat, InRange v a.1 a.2 ∧
    face ((v.sub a.1).face a.2) = x' then p ((v.sub hx.choose.1).face hx.choose.2) else 0, ?_⟩
  intro i f hr
  have hx : ∃ a : Nat × Nat, InRange v a.1 a.2 ∧
      face ((v.sub a.1).face a.2) = face ((v.sub i).face f) := ⟨(i, f), hr, rfl⟩
  beta_reduce
  rw [dif_pos hx]
  obtain ⟨h1, h2⟩ := hx.choose_spec
  rw [h.faceInj _ _ _ _ h1 hr h2]

end

/-- C187: whether a vertex is refused does not depend on how it is listed. -/
theorem C187_refused (v v' : Vtx) (wf : WellFormed v) (wf' : WellFormed v') (cell : Nat → Nat)
    (sub : Nat → Nat → Nat) (face : Nat → Nat) (turn : Nat → Bool)
    (h : Relisted v v' cell sub face turn) : trans v' = none ↔ trans v = none := by
  have hs : SamePressures v v' cell sub (fun _ => 0) (fun _ => 0) (fun _ => 0) (fun _ => 0) :=
    ⟨fun _ _ => rfl, fun _ _ _ _ => rfl⟩
  rw [C47_refused_iff wf, C47_refused_iff wf']
  constructor
  · rintro ⟨p', hp', i', f', hr', hne⟩
    obtain ⟨i, f, hr, rfl, rfl⟩ := relisted_onto h hr'
    refine ⟨fun x => p' (face x), (balanced_relisted h hs _ p' (fun _ _ _ => rfl)).1 hp', i, f, hr,
      ?_⟩
    rw [h.faces i f hr] at hne
    exact hne
  · rintro ⟨p, hp, i, f, hr, hne⟩
    obtain ⟨p', e⟩ := relist_pressures h p
    refine ⟨p', (balanced_relisted h hs p p' e).2 hp, cell i, sub i f, relisted_range h hr, ?_⟩
    rw [h.faces i f hr, e i f hr]
    exact hne

/-- C187: the flux the transmissibilities give for a face is the same for both lists, up to the sign
that says which side of the face is called up. -/
theorem C187_flux (v v' : Vtx) (wf : WellFormed v) (wf' : WellFormed v') (cell : Nat → Nat)
    (sub : Nat → Nat → Nat) (face : Nat → Nat) (turn : Nat → Bool)
    (h : Relisted v v' cell sub face turn) {T T'} (hT : trans v = some T)
    (hT' : trans v' = some T') (u pb u' pb' : Nat → ℝ)
    (hs : SamePressures v v' cell sub u pb u' pb') (i f r r' : Nat) (hr : InRange v i f)
    (hb : (v.sub i).internal f = true ∨ v.dirichlet = true)
    (row : RowOf v r ((v.sub i).face f)) (row' : RowOf v' r' (face ((v.sub i).face f))) :
    transTimes v' T' u' pb' r' =
      (if turn ((v.sub i).face f) then -1 else 1)*transTimes v T u pb r := by
  obtain ⟨p, hp, -⟩ := C47_face_pressures wf hT u pb
  obtain ⟨p', e⟩ := relist_pressures h p
  have hp' := (balanced_relisted h hs p p' e).2 hp
  rw [C47_common_flux wf hT u pb p hp hr hb row,
    C47_common_flux wf' hT' u' pb' p' hp' (relisted_range h hr)
      (by rw [h.internal i f hr, h.dirichlet]; exact hb)
      (by rw [h.faces i f hr]; exact row'),
    hs.cells i hr.1, oneSided_relisted h hr (u i) p p' e]
  rfl

/-- C187, entry by entry: the transmissibility of a face with respect to a cell. -/
theorem C187_entries (v v' : Vtx) (wf : WellFormed v) (wf' : WellFormed v') (cell : Nat → Nat)
    (sub : Nat → Nat → Nat) (face : Nat → Nat) (turn : Nat → Bool)
    (h : Relisted v v' cell sub face turn) {T T'} (hT : trans v = some T)
    (hT' : trans v' = some T') (i f r r' : Nat) (hr : InRange v i f)
    (hb : (v.sub i).internal f = true ∨ v.dirichlet = true)
    (row : RowOf v r ((v.sub i).face f)) (row' : RowOf v' r' (face ((v.sub i).face f)))
    (j : Nat) (hj : j < v.npcen) :
    T' r' ⟨cell j, by rw [h.npcen]; exact Nat.lt_add_right _ (h.cellLt j hj)⟩ =
      (if turn ((v.sub i).face f) then -1 else 1)*T r ⟨j, Nat.lt_add_right _ hj⟩ := by
  have hs : SamePressures v v' cell sub (fun k => if k = j then 1 else 0) (fun _ => 0)
      (fun k => if k = cell j then 1 else 0) (fun _ => 0) :=
    ⟨fun k hk => by
      by_cases e : k = j
      · rw [e]; simp
      · have : cell k ≠ cell j := fun e' => e (h.cellInj k hk j hj e')
        simp [e, this], fun _ _ _ _ => rfl⟩
  have t := C187_flux v v' wf wf' cell sub face turn h hT hT' _ _ _ _ hs i f r r' hr hb row row'
  have pick : ∀ (x : Vtx) (S : Nat → Fin (x.npcen + nDir x) → ℝ) (k : Nat) (hk : k < x.npcen)
      (q : Nat), transTimes x S (fun a => if a = k then 1 else 0) (fun _ => 0) q =
        S q ⟨k, Nat.lt_add_right _ hk⟩ := by
    intro x S k hk q
    unfold transTimes
    rw [sum_eq_single ⟨k, Nat.lt_add_right _ hk⟩]
    · simp [hk]
    · intro b _ hne
      have : b.1 ≠ k := fun e => hne (Fin.ext e)
      simp [this]
    · intro hn; exact absurd (mem_univ _) hn
  rw [pick v T j hj r, pick v' T' (cell j) (by rw [h.npcen]; exact h.cellLt j hj) r'] at t
  exact t

theorem saved_row {n : Nat} {w : Vert} {v : Vtx} {T} (s : Saved n w v T) {r : Nat}
    (hr : r < v.nFaces) (q : Nat → ℝ) :
    ∑ j ∈ range w.nCols, w.M r j*q (w.col j) =
      transTimes v T (fun i => q (w.cell i)) (fun b => q (n + b)) r := by
  unfold transTimes
  rw [s.nCols, sum_range]
  refine sum_congr rfl fun j _ => ?_
  rw [s.M r hr j]
  congr 1
  by_cases hj : j.1 < v.npcen
  · rw [if_pos hj, (s.cell j hj).1]
  · rw [if_neg hj]
    have e : j.1 = v.npcen + (j.1 - v.npcen) := by omega
    beta_reduce
    rw [← s.bnd (j.1 - v.npcen) (by have := j.2; omega), ← e]

/-- C187 in the terms of C186: the rows a process adds to its matrix of transmissibilities for a
vertex are those of a process that lists the vertex in another way. -/
theorem C187_rows (g l : Ctx) (w : View) (n i0 : Nat) (v v' : Vtx) (wf : WellFormed v)
    (wf' : WellFormed v') (cell : Nat → Nat) (sub : Nat → Nat → Nat) (face : Nat → Nat)
    (turn : Nat → Bool) (h : Relisted v v' cell sub face turn) {T T'} (hT : trans v = some T)
    (hT' : trans v' = some T') (sg : Saved g.numCells (g.vert (w.vert n)) v T)
    (sl : Saved l.numCells (l.vert n) v' T')
    (same : ∀ i < v.npcen, w.cell ((l.vert n).cell (cell i)) = (g.vert (w.vert n)).cell i)
    (bnds : ∀ i f, InRange v i f → (v.sub i).internal f = false →
      w.bnd ((v'.sub (cell i)).bnd (sub i f)) = (v.sub i).bnd f)
    (i f : Nat) (hr : InRange v i f) (hb : (v.sub i).internal f = true ∨ v.dirichlet = true)
    (row : RowOf v (w.row n i0) ((v.sub i).face f)) (row' : RowOf v' i0 (face ((v.sub i).face f)))
    (hflip : w.flip n i0 = turn ((v.sub i).face f)) (J : Nat) :
    (∑ j ∈ range (l.vert n).nCols,
      if w.column g l ((l.vert n).col j) = J then (l.vert n).M i0 j else 0) =
    w.sign n i0*∑ j ∈ range (g.vert (w.vert n)).nCols,
      if (g.vert (w.vert n)).col j = J then (g.vert (w.vert n)).M (w.row n i0) j else 0 := by
  have asMul : ∀ (m : Nat) (col : Nat → Nat) (M : Nat → ℝ),
      (∑ j ∈ range m, if col j = J then M j else 0) =
        ∑ j ∈ range m, M j*(fun k => if k = J then (1:ℝ) else 0) (col j) := by
    intro m col M
    exact sum_congr rfl fun j _ => by by_cases e : col j = J <;> simp [e]
  have el : (∑ j ∈ range (l.vert n).nCols,
      if w.column g l ((l.vert n).col j) = J then (l.vert n).M i0 j else 0) =
      ∑ j ∈ range (l.vert n).nCols, (l.vert n).M i0 j*
        (fun k => if w.column g l k = J then (1:ℝ) else 0) ((l.vert n).col j) :=
    sum_congr rfl fun j _ => by by_cases e : w.column g l ((l.vert n).col j) = J <;> simp [e]
  rw [el, asMul _ (g.vert (w.vert n)).col ((g.vert (w.vert n)).M (w.row n i0)),
    saved_row sl row'.1 (fun k => if w.column g l k = J then (1:ℝ) else 0),
    saved_row sg row.1 (fun k => if k = J then (1:ℝ) else 0)]
  have hs : SamePressures v v' cell sub
      (fun i => if (g.vert (w.vert n)).cell i = J then 1 else 0)
      (fun b => if g.numCells + b = J then 1 else 0)
      (fun i => if w.column g l ((l.vert n).cell i) = J then 1 else 0)
      (fun b => if w.column g l (l.numCells + b) = J then 1 else 0) := by
    constructor
    · intro i hi
      have hc := (sl.cell (cell i) (by rw [h.npcen]; exact h.cellLt i hi)).2
      unfold View.column
      rw [if_pos hc, same i hi]
    · intro i f hr hi
      have e : w.column g l (l.numCells + (v'.sub (cell i)).bnd (sub i f)) =
          g.numCells + (v.sub i).bnd f := by
        unfold View.column
        rw [if_neg (Nat.not_lt.2 (Nat.le_add_right _ _)), Nat.add_sub_cancel_left, bnds i f hr hi]
      rw [e]
  rw [C187_flux v v' wf wf' cell sub face turn h hT hT' _ _ _ _ hs i f _ _ hr hb row row']
  unfold View.sign
  rw [hflip]

/-! ### The vertex of C47, listed the other way round -/

namespace RelistWitness

def cell (i : Nat) : Nat := 1 - i
def sub (_ f : Nat) : Nat := (f + 1) % 3
def back (f : Nat) : Nat := (f + 2) % 3
def face (x : Nat) : Nat := 4 - x

/-- The cells in the other order, their faces turned round by one, the numbers of the faces from the
other end, and all normals reversed. -/
def v' : Vtx where
  npcen := 2
  sub i := {
    G := fun f k => -(Witness.v.sub (1 - i)).G (back f) (back k)
    internal := fun f => back f == 0
    up := fun f => !Witness.isUp (1 - i) (back f)
    link := fun _ => 0
    bnd := fun f => Witness.faces (1 - i) (back f) - 1
    face := fun f => face (Witness.faces (1 - i) (back f)) }
  nFaces := 5
  nBnd := 4
  nIntFaces := 1
  ids0 := fun r => r
  dirichlet := true

theorem wf' : WellFormed v' where
  sub_inj := by
    have : ∀ i < 2, ∀ f < 3, ∀ f' < 3, face (Witness.faces (1 - i) (back f)) =
        face (Witness.faces (1 - i) (back f')) → f = f' := by decide
    exact fun i f f' h h' e => this i h.1 f h.2 f' h'.2 e
  face_inj := by
    have : ∀ (i i' : Fin 2) (f f' : Fin 3), face (Witness.faces (1 - i) (back f)) =
        face (Witness.faces (1 - i') (back f')) →
        (!Witness.isUp (1 - i) (back f)) = (!Witness.isUp (1 - i') (back f')) →
        i.1 = i'.1 ∧ f.1 = f'.1 := by decide
    exact fun i f i' f' h h' => this ⟨i, h.1⟩ ⟨i', h'.1⟩ ⟨f, h.2⟩ ⟨f', h'.2⟩
  paired := by
    rintro i f ⟨h1, h2⟩ hI
    change i < 2 at h1
    have hI : (back f == 0) = true := hI
    have hf : f = 1 := by interval_cases f <;> simp_all [back]
    subst hf
    interval_cases i
    · exact ⟨1, 1, ⟨by decide, by decide⟩, rfl, rfl⟩
    · exact ⟨0, 1, ⟨by decide, by decide⟩, rfl, rfl⟩
  bnd_once := by
    have : ∀ (i i' : Fin 2) (f f' : Fin 3), (back f == 0) = false →
        face (Witness.faces (1 - i) (back f)) = face (Witness.faces (1 - i') (back f')) →
        i.1 = i'.1 ∧ f.1 = f'.1 := by decide
    exact fun i f i' f' h h' => this ⟨i, h.1⟩ ⟨i', h'.1⟩ ⟨f, h.2⟩ ⟨f', h'.2⟩
  internal_face := by
    have : ∀ i < 2, ∀ f < 3, ∀ i' < 2, ∀ f' < 3, face (Witness.faces (1 - i) (back f)) =
        face (Witness.faces (1 - i') (back f')) → (back f == 0) = (back f' == 0) := by decide
    exact fun i f i' f' h h' => this i h.1 f h.2 i' h'.1 f' h'.2
  link_iff := by
    rintro i f i' f' ⟨h1, h2⟩ ⟨h3, h4⟩ hI hI'
    have hI : (back f == 0) = true := hI
    have hI' : (back f' == 0) = true := hI'
    have hf : f = 1 := by interval_cases f <;> simp_all [back]
    have hf' : f' = 1 := by interval_cases f' <;> simp_all [back]
    subst hf hf'
    change i < 2 at h1; change i' < 2 at h3
    interval_cases i <;> interval_cases i' <;> simp [v', Witness.faces, back]
  link_lt := by intro i f _ _; exact Nat.zero_lt_one
  link_onto := by
    intro r hr
    change r < 1 at hr
    exact ⟨0, 1, ⟨by decide, by decide⟩, rfl, by show 0 = r; omega⟩
  nBnd_eq := by simp [v', Finset.sum_range_succ, back]
  nFaces_eq := rfl

theorem relisted : Relisted Witness.v v' cell sub face (fun _ => true) where
  npcen := rfl
  dirichlet := rfl
  cellLt := by
    intro i _; show 1 - i < 2; omega
  cellInj := by
    have : ∀ i < 2, ∀ i' < 2, cell i = cell i' → i = i' := by decide
    exact this
  subLt := fun _ _ _ => Nat.mod_lt _ (by decide)
  subInj := by
    have : ∀ f < 3, ∀ f' < 3, sub 0 f = sub 0 f' → f = f' := by decide
    exact fun i f f' h h' => this f h.2 f' h'.2
  faces := by
    have : ∀ i < 2, ∀ f < 3, face (Witness.faces (1 - cell i) (back (sub i f))) =
      face (Witness.faces i f) := by decide
    exact fun i f h => this i h.1 f h.2
  faceInj := by
    have : ∀ i < 2, ∀ f < 3, ∀ i' < 2, ∀ f' < 3, face (Witness.faces i f) =
      face (Witness.faces i' f') → Witness.faces i f = Witness.faces i' f' := by decide
    exact fun i f i' f' h h' => this i h.1 f h.2 i' h'.1 f' h'.2
  internal := by
    have : ∀ i < 2, ∀ f < 3, (back (sub i f) == 0) = (f == 0) := by decide
    exact fun i f h => this i h.1 f h.2
  G := by
    have e : ∀ f < 3, back (sub 0 f) = f := by decide
    have c : ∀ i < 2, 1 - cell i = i := by decide
    intro i f k h h'
    show -(Witness.v.sub (1 - cell i)).G (back (sub 0 f)) (back (sub 0 k)) = _
    rw [e f h.2, e k h'.2, c i h.1]
    simp

end RelistWitness

/-- All hypotheses of C187 are met: both lists are accepted, and the flux 1 through the face between
the cubes is the flux -1 of the face when its normal is reversed. -/
example : ∃ T T' r r', trans Witness.v = some T ∧ trans RelistWitness.v' = some T' ∧
    RowOf Witness.v r 0 ∧ RowOf RelistWitness.v' r' 4 ∧
    T' r' ⟨1, by decide⟩ = -1*T r ⟨0, by decide⟩ := by
  obtain ⟨T, hT⟩ := Witness.solvable
  have hT' : trans RelistWitness.v' ≠ none := fun e => by
    rw [(C187_refused _ _ Witness.wf RelistWitness.wf' _ _ _ _ RelistWitness.relisted).1 e] at hT
    cases hT
  obtain ⟨T', hT'⟩ := Option.ne_none_iff_exists'.1 hT'
  obtain ⟨r, hr, -⟩ := (C47_rows Witness.wf).2 0 0 ⟨by decide, by decide⟩
  obtain ⟨r', hr', -⟩ := (C47_rows RelistWitness.wf').2 1 1 ⟨by decide, by decide⟩
  refine ⟨T, T', r, r', hT, hT', hr, hr', ?_⟩
  exact C187_entries _ _ Witness.wf RelistWitness.wf' _ _ _ _ RelistWitness.relisted hT hT' 0 0 r r'
    ⟨by decide, by decide⟩ (Or.inr rfl) hr hr' 0 (by decide)

end

end TDy.Mpfao.Props
