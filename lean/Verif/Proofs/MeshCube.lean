import Verif.Spec.MeshTraverse
import Mathlib.Tactic.Linarith
import Mathlib.Tactic.NormNum
import Mathlib.Tactic.Push

/-!
# A concrete mesh: eight cubes

Two by two by two unit cubes: 27 vertices, 36 faces.  It has vertices inside the domain (a ring of
four cells on both levels), on its sides (chains of two cells), on its upright edges (one cell on
each level), and on its top and bottom (one level only).  All entries are written out.
-/

namespace TDy.Traverse.Cube

open TDy.Traverse TDy.Traverse.Spec

def vxyz : List (Nat × Nat × Nat) :=
  [(0, 0, 0), (1, 0, 0), (2, 0, 0), (0, 1, 0), (1, 1, 0), (2, 1, 0), (0, 2, 0), (1, 2, 0), (2,
    2, 0), (0, 0, 1), (1, 0, 1), (2, 0, 1), (0, 1, 1), (1, 1, 1), (2, 1, 1), (0, 2, 1), (1, 2,
    1), (2, 2, 1), (0, 0, 2), (1, 0, 2), (2, 0, 2), (0, 1, 2), (1, 1, 2), (2, 1, 2), (0, 2, 2),
    (1, 2, 2), (2, 2, 2)]

def cellFacesT : List (List Nat) :=
  [[0, 1, 12, 14, 24, 28], [1, 2, 13, 15, 25, 29], [3, 4, 14, 16, 26, 30], [4, 5, 15, 17, 27,
    31], [6, 7, 18, 20, 28, 32], [7, 8, 19, 21, 29, 33], [9, 10, 20, 22, 30, 34], [10, 11, 21,
    23, 31, 35]]

def cellVertsT : List (List Nat) :=
  [[0, 1, 3, 4, 9, 10, 12, 13], [1, 2, 4, 5, 10, 11, 13, 14], [3, 4, 6, 7, 12, 13, 15, 16], [4,
    5, 7, 8, 13, 14, 16, 17], [9, 10, 12, 13, 18, 19, 21, 22], [10, 11, 13, 14, 19, 20, 22, 23],
    [12, 13, 15, 16, 21, 22, 24, 25], [13, 14, 16, 17, 22, 23, 25, 26]]

def faceVertsT : List (List Nat) :=
  [[0, 3, 12, 9], [1, 4, 13, 10], [2, 5, 14, 11], [3, 6, 15, 12], [4, 7, 16, 13], [5, 8, 17,
    14], [9, 12, 21, 18], [10, 13, 22, 19], [11, 14, 23, 20], [12, 15, 24, 21], [13, 16, 25,
    22], [14, 17, 26, 23], [0, 1, 10, 9], [1, 2, 11, 10], [3, 4, 13, 12], [4, 5, 14, 13], [6, 7,
    16, 15], [7, 8, 17, 16], [9, 10, 19, 18], [10, 11, 20, 19], [12, 13, 22, 21], [13, 14, 23,
    22], [15, 16, 25, 24], [16, 17, 26, 25], [0, 1, 4, 3], [1, 2, 5, 4], [3, 4, 7, 6], [4, 5, 8,
    7], [9, 10, 13, 12], [10, 11, 14, 13], [12, 13, 16, 15], [13, 14, 17, 16], [18, 19, 22, 21],
    [19, 20, 23, 22], [21, 22, 25, 24], [22, 23, 26, 25]]

def faceCellsT : List (ℤ × ℤ) :=
  [(-1, 0), (0, 1), (1, -2), (-3, 2), (2, 3), (3, -4), (-5, 4), (4, 5), (5, -6), (-7, 6), (6,
    7), (7, -8), (-9, 0), (-10, 1), (0, 2), (1, 3), (2, -11), (3, -12), (-13, 4), (-14, 5), (4,
    6), (5, 7), (6, -15), (7, -16), (-17, 0), (-18, 1), (-19, 2), (-20, 3), (0, 4), (1, 5), (2,
    6), (3, 7), (4, -21), (5, -22), (6, -23), (7, -24)]

def internalT : List Bool :=
  [false, true, false, false, true, false, false, true, false, false, true, false, false, false,
    true, true, false, false, false, false, true, true, false, false, false, false, false,
    false, true, true, true, true, false, false, false, false]

def vCellsT : List (List Nat) :=
  [[0], [0, 1], [1], [0, 2], [0, 1, 2, 3], [1, 3], [2], [2, 3], [3], [0, 4], [0, 1, 4, 5], [1,
    5], [0, 2, 4, 6], [0, 1, 2, 3, 4, 5, 6, 7], [1, 3, 5, 7], [2, 6], [2, 3, 6, 7], [3, 7], [4],
    [4, 5], [5], [4, 6], [4, 5, 6, 7], [5, 7], [6], [6, 7], [7]]

def vFacesT : List (List Nat) :=
  [[0, 12, 24], [1, 12, 13, 24, 25], [2, 13, 25], [0, 3, 14, 24, 26], [1, 4, 14, 15, 24, 25, 26,
    27], [2, 5, 15, 25, 27], [3, 16, 26], [4, 16, 17, 26, 27], [5, 17, 27], [0, 6, 12, 18, 28],
    [1, 7, 12, 13, 18, 19, 28, 29], [2, 8, 13, 19, 29], [0, 3, 6, 9, 14, 20, 28, 30], [1, 4, 7,
    10, 14, 15, 20, 21, 28, 29, 30, 31], [2, 5, 8, 11, 15, 21, 29, 31], [3, 9, 16, 22, 30], [4,
    10, 16, 17, 22, 23, 30, 31], [5, 11, 17, 23, 31], [6, 18, 32], [7, 18, 19, 32, 33], [8, 19,
    33], [6, 9, 20, 32, 34], [7, 10, 20, 21, 32, 33, 34, 35], [8, 11, 21, 33, 35], [9, 22, 34],
    [10, 22, 23, 34, 35], [11, 23, 35]]

def vBndT : List (List Nat) :=
  [[0, 12, 24], [12, 13, 24, 25], [2, 13, 25], [0, 3, 24, 26], [24, 25, 26, 27], [2, 5, 25, 27],
    [3, 16, 26], [16, 17, 26, 27], [5, 17, 27], [0, 6, 12, 18], [12, 13, 18, 19], [2, 8, 13,
    19], [0, 3, 6, 9], [], [2, 5, 8, 11], [3, 9, 16, 22], [16, 17, 22, 23], [5, 11, 17, 23], [6,
    18, 32], [18, 19, 32, 33], [8, 19, 33], [6, 9, 32, 34], [32, 33, 34, 35], [8, 11, 33, 35],
    [9, 22, 34], [22, 23, 34, 35], [11, 23, 35]]

def subT : List (List (List Nat)) :=
  [[[0, 12, 24]], [[1, 12, 24], [1, 13, 25]], [[2, 13, 25]], [[0, 14, 24], [3, 14, 26]], [[1,
    14, 24], [1, 15, 25], [4, 14, 26], [4, 15, 27]], [[2, 15, 25], [5, 15, 27]], [[3, 16, 26]],
    [[4, 16, 26], [4, 17, 27]], [[5, 17, 27]], [[0, 12, 28], [6, 18, 28]], [[1, 12, 28], [1, 13,
    29], [7, 18, 28], [7, 19, 29]], [[2, 13, 29], [8, 19, 29]], [[0, 14, 28], [3, 14, 30], [6,
    20, 28], [9, 20, 30]], [[1, 14, 28], [1, 15, 29], [4, 14, 30], [4, 15, 31], [7, 20, 28], [7,
    21, 29], [10, 20, 30], [10, 21, 31]], [[2, 15, 29], [5, 15, 31], [8, 21, 29], [11, 21, 31]],
    [[3, 16, 30], [9, 22, 30]], [[4, 16, 30], [4, 17, 31], [10, 22, 30], [10, 23, 31]], [[5, 17,
    31], [11, 23, 31]], [[6, 18, 32]], [[7, 18, 32], [7, 19, 33]], [[8, 19, 33]], [[6, 20, 32],
    [9, 20, 34]], [[7, 20, 32], [7, 21, 33], [10, 20, 34], [10, 21, 35]], [[8, 21, 33], [11, 21,
    35]], [[9, 22, 34]], [[10, 22, 34], [10, 23, 35]], [[11, 23, 35]]]

def aboveT : List (List Nat) :=
  [[0], [0, 1], [1], [0, 2], [0, 1, 3, 2], [1, 3], [2], [3, 2], [3], [4], [4, 5], [5], [4, 6],
    [4, 5, 7, 6], [5, 7], [6], [7, 6], [7], [], [], [], [], [], [], [], [], []]

def belowT : List (List Nat) :=
  [[], [], [], [], [], [], [], [], [], [0], [0, 1], [1], [0, 2], [0, 1, 3, 2], [1, 3], [2], [3,
    2], [3], [4], [4, 5], [5], [4, 6], [4, 5, 7, 6], [5, 7], [6], [7, 6], [7]]


def xs (v : Nat) : Nat := (vxyz.getD v (0, 0, 0)).1
def ys (v : Nat) : Nat := (vxyz.getD v (0, 0, 0)).2.1
def zs (v : Nat) : Nat := (vxyz.getD v (0, 0, 0)).2.2

noncomputable def cube : TMesh where
  numVertices := 27
  maxVertexFaces := 12
  isLocal := fun _ => true
  coord := fun v => ⟨(xs v : ℝ), (ys v : ℝ), (zs v : ℝ)⟩
  cellFaces := fun c => cellFacesT.getD c []
  cellVerts := fun c => cellVertsT.getD c []
  cellCen := fun c => ⟨((c % 2 : Nat) : ℝ) + 1 / 2, ((c / 2 % 2 : Nat) : ℝ) + 1 / 2,
    ((c / 4 : Nat) : ℝ) + 1 / 2⟩
  faceCells := fun f => faceCellsT.getD f (-1, -1)
  faceVerts := fun f => faceVertsT.getD f []
  faceInternal := fun f => internalT.getD f false
  faceCen := fun f => ⟨(((faceVertsT.getD f []).map xs).sum : ℝ) / 4,
    (((faceVertsT.getD f []).map ys).sum : ℝ) / 4, (((faceVertsT.getD f []).map zs).sum : ℝ) / 4⟩
  vCells := fun v => vCellsT.getD v []
  vBnd := fun v => vBndT.getD v []
  vFaces := fun v => vFacesT.getD v []
  subFace := fun v i f => ((subT.getD v []).getD i []).getD f 0

/-! Decidable forms of the notions of the specification, for this mesh. -/

theorem plumb_iff (v w : Nat) : Plumb cube v w ↔ xs v = xs w ∧ ys v = ys w := by
  unfold Plumb cube
  simp only
  constructor
  · intro h
    have hx : xs v = xs w := by
      by_contra hne
      have h1 : (1 : ℝ) ≤ ((xs v : ℝ) - (xs w : ℝ)) ^ 2 := by
        have hz : ((xs v : ℤ) - (xs w : ℤ)) ≠ 0 := by omega
        have : (1 : ℤ) ≤ ((xs v : ℤ) - (xs w : ℤ)) ^ 2 := by
          have := sq_nonneg ((xs v : ℤ) - (xs w : ℤ))
          have := pow_ne_zero 2 hz
          omega
        exact_mod_cast this
      have h2 := sq_nonneg ((ys v : ℝ) - (ys w : ℝ))
      norm_num at h
      linarith
    have hy : ys v = ys w := by
      by_contra hne
      have h1 : (1 : ℝ) ≤ ((ys v : ℝ) - (ys w : ℝ)) ^ 2 := by
        have hz : ((ys v : ℤ) - (ys w : ℤ)) ≠ 0 := by omega
        have : (1 : ℤ) ≤ ((ys v : ℤ) - (ys w : ℤ)) ^ 2 := by
          have := sq_nonneg ((ys v : ℤ) - (ys w : ℤ))
          have := pow_ne_zero 2 hz
          omega
        exact_mod_cast this
      have h2 := sq_nonneg ((xs v : ℝ) - (xs w : ℝ))
      norm_num at h
      linarith
    exact ⟨hx, hy⟩
  · rintro ⟨h1, h2⟩
    rw [h1, h2]
    norm_num

theorem z_lt (v w : Nat) : (cube.coord v).z < (cube.coord w).z ↔ zs v < zs w := by
  change ((zs v : ℝ) < (zs w : ℝ)) ↔ _
  exact Nat.cast_lt

theorem z_ne (v w : Nat) : (cube.coord v).z ≠ (cube.coord w).z ↔ zs v ≠ zs w := by
  change ((zs v : ℝ) ≠ (zs w : ℝ)) ↔ _
  exact Nat.cast_injective.ne_iff

/-- a vertical edge -/
def edgeB (v c w : Nat) : Bool :=
  (cellVertsT.getD c []).contains w && w != v && xs v == xs w && ys v == ys w

theorem edge_iff (v c w : Nat) : Edge cube v c w ↔ edgeB v c w = true := by
  unfold edgeB
  simp only [Bool.and_eq_true, List.contains_iff_mem, bne_iff_ne, beq_iff_eq]
  constructor
  · rintro ⟨h1, h2, h3⟩
    obtain ⟨h4, h5⟩ := (plumb_iff v w).1 h3
    exact ⟨⟨⟨h1, h2⟩, h4⟩, h5⟩
  · rintro ⟨⟨⟨h1, h2⟩, h4⟩, h5⟩
    exact ⟨h1, h2, (plumb_iff v w).2 ⟨h4, h5⟩⟩

theorem edge_lt {v c w : Nat} (h : Edge cube v c w) : w < 27 := by
  have hm : w ∈ cellVertsT.getD c [] := h.vertex
  have key : ∀ l ∈ cellVertsT, ∀ u ∈ l, u < 27 := by decide +kernel
  rcases Nat.lt_or_ge c cellVertsT.length with hc | hc
  · rw [List.getD_eq_getElem?_getD, List.getElem?_eq_getElem hc] at hm
    exact key _ (List.getElem_mem hc) w hm
  · rw [List.getD_eq_getElem?_getD, List.getElem?_eq_none hc] at hm
    simp at hm

def overB (v c : Nat) : Bool := (List.range 27).any fun w => edgeB v c w && decide (zs v < zs w)

theorem over_iff (v c : Nat) : Over cube v c ↔ overB v c = true := by
  unfold Over overB
  rw [List.any_eq_true]
  constructor
  · rintro ⟨w, h1, h2⟩
    exact ⟨w, List.mem_range.2 (edge_lt h1), by
      rw [Bool.and_eq_true, ← edge_iff, decide_eq_true_eq, ← z_lt]; exact ⟨h1, h2⟩⟩
  · rintro ⟨w, _, h⟩
    rw [Bool.and_eq_true, ← edge_iff, decide_eq_true_eq, ← z_lt] at h
    exact ⟨w, h.1, h.2⟩

def uprightB (v f : Nat) : Bool :=
  (faceVertsT.getD f []).any fun w => w != v && xs v == xs w && ys v == ys w

theorem upright_iff (v f : Nat) : Upright cube v f ↔ uprightB v f = true := by
  unfold Upright uprightB
  rw [List.any_eq_true]
  constructor
  · rintro ⟨w, h1, h2, h3⟩
    obtain ⟨h4, h5⟩ := (plumb_iff v w).1 h3
    exact ⟨w, h1, by simp [h2, h4, h5]⟩
  · rintro ⟨w, h1, h⟩
    simp only [Bool.and_eq_true, bne_iff_ne, beq_iff_eq] at h
    exact ⟨w, h1, h.1.1, (plumb_iff v w).2 ⟨h.1.2, h.2⟩⟩

def nbB (c d : Nat) : Bool := (cellFacesT.getD c []).any fun f => (cellFacesT.getD d []).contains f

theorem nb_iff (c d : Nat) : Neighbours cube c d ↔ nbB c d = true := by
  unfold Neighbours nbB
  rw [List.any_eq_true]
  simp only [List.contains_iff_mem]
  exact Iff.rfl

def sideB (x c : Nat) : Bool :=
  (faceCellsT.getD x (-1, -1)).1 == (c : ℤ) || (faceCellsT.getD x (-1, -1)).2 == (c : ℤ)

theorem side_iff (x c : Nat) : Side cube x c ↔ sideB x c = true := by
  unfold Side sideB
  simp only [Bool.or_eq_true, beq_iff_eq]
  exact Iff.rfl

open Classical in
theorem uprightOf_eq (v c : Nat) :
    uprightOf cube v c = (vBndT.getD v []).filter fun x => sideB x c && uprightB v x := by
  unfold uprightOf
  apply List.filter_congr
  intro x _
  rw [Bool.eq_iff_iff, decide_eq_true_eq, Bool.and_eq_true, side_iff, upright_iff]

open Classical in
theorem flatOf_eq (v c : Nat) :
    flatOf cube v c = (vBndT.getD v []).filter fun x => sideB x c && !uprightB v x := by
  unfold flatOf
  apply List.filter_congr
  intro x _
  rw [Bool.eq_iff_iff, decide_eq_true_eq, Bool.and_eq_true, side_iff, upright_iff]
  simp

open Classical in
theorem overs_eq (v : Nat) : overs cube v = (vCellsT.getD v []).filter (overB v) := by
  unfold overs
  apply List.filter_congr
  intro c _
  rw [Bool.eq_iff_iff, decide_eq_true_eq, over_iff]

open Classical in
theorem unders_eq (v : Nat) : unders cube v = (vCellsT.getD v []).filter fun c => !overB v c := by
  unfold unders
  apply List.filter_congr
  intro c _
  rw [Bool.eq_iff_iff, decide_eq_true_eq, over_iff]
  simp

/-- all pairs of positions of a list -/
def pairsOk (l : List Nat) (P : Nat → Nat → Bool) : Bool :=
  (List.range l.length).all fun j => (List.range j).all fun i =>
    nbB (l.getD i 0) (l.getD j 0) == P i j

theorem pairsOk_spec {l : List Nat} {P : Nat → Nat → Bool} (h : pairsOk l P = true) (i j c d : Nat)
    (hij : i < j) (hc : l[i]? = some c) (hd : l[j]? = some d) :
    Neighbours cube c d ↔ P i j = true := by
  unfold pairsOk at h
  have hj := (List.getElem?_eq_some_iff.1 hd).1
  have h1 := List.all_eq_true.1 (List.all_eq_true.1 h j (List.mem_range.2 hj)) i
    (List.mem_range.2 hij)
  rw [List.getD_eq_getElem?_getD, hc, List.getD_eq_getElem?_getD, hd] at h1
  simp only [Option.getD_some, beq_iff_eq] at h1
  rw [nb_iff, h1]

def ringB (l : List Nat) : Bool := decide (3 ≤ l.length) && decide l.Nodup &&
  pairsOk l fun i j => j == i + 1 || (i == 0 && j + 1 == l.length)

theorem ring_of {l : List Nat} (h : ringB l = true) : Ring cube l := by
  unfold ringB at h
  simp only [Bool.and_eq_true, decide_eq_true_eq] at h
  refine ⟨h.1.1, h.1.2, fun i j c d hij hc hd => ?_⟩
  rw [pairsOk_spec h.2 i j c d hij hc hd]
  simp

def endedB (v : Nat) (l : List Nat) : Bool := !l.isEmpty && decide l.Nodup &&
  pairsOk l (fun i j => j == i + 1) && (List.range l.length).all fun i =>
    ((vBndT.getD v []).filter fun x => sideB x (l.getD i 0) && uprightB v x).length
      == (if i = 0 then 1 else 0) + (if i + 1 = l.length then 1 else 0)

theorem ended_of {v : Nat} {l : List Nat} (h : endedB v l = true) : Ended cube v l := by
  unfold endedB at h
  simp only [Bool.and_eq_true, decide_eq_true_eq] at h
  obtain ⟨⟨⟨h1, h2⟩, h3⟩, h4⟩ := h
  refine ⟨⟨?_, h2, fun i j c d hij hc hd => ?_⟩, fun i c hc => ?_⟩
  · rintro rfl; simp at h1
  · rw [pairsOk_spec h3 i j c d hij hc hd]; simp
  · have hi := (List.getElem?_eq_some_iff.1 hc).1
    have := List.all_eq_true.1 h4 i (List.mem_range.2 hi)
    rw [List.getD_eq_getElem?_getD, hc] at this
    simp only [Option.getD_some, beq_iff_eq] at this
    rw [uprightOf_eq]
    exact this

def above (v : Nat) : List Nat := aboveT.getD v []
def below (v : Nat) : List Nat := belowT.getD v []

theorem several_lt {v : Nat} (h : 2 ≤ (vCellsT.getD v []).length) : v < 27 := by
  by_contra hv
  have : vCellsT.length = 27 := by decide
  rw [List.getD_eq_getElem?_getD, List.getElem?_eq_none (by omega)] at h
  simp at h

theorem layered {v : Nat} (h : 2 ≤ (vCellsT.getD v []).length) : Layered cube v (above v) (below v) := by
  have hv := several_lt h
  have hcells : ∀ v < 27, ((above v ++ below v).isPerm (vCellsT.getD v [])) = true := by
    decide +kernel
  have hsides : ∀ v < 27, 2 ≤ (vCellsT.getD v []).length →
      (((above v).isEmpty || ringB (above v)) && ((below v).isEmpty || ringB (below v)) &&
        (vBndT.getD v []).all fun x => !uprightB v x) = true ∨
      (((above v).isEmpty || endedB v (above v)) && ((below v).isEmpty || endedB v (below v))) = true := by
    decide +kernel
  have hstack : ∀ v < 27, above v ≠ [] → below v ≠ [] → (above v).length = (below v).length ∧
      ∀ i < (above v).length, ∀ j < (below v).length,
        nbB ((above v).getD i 0) ((below v).getD j 0) = decide (i = j) := by
    decide +kernel
  have hone : ∀ v < 27, above v = [] ∨ below v = [] → ∀ c ∈ vCellsT.getD v [],
      ((vBndT.getD v []).filter fun x => sideB x c && !uprightB v x).length = 1 := by
    decide +kernel
  have htwo : ∀ v < 27, above v ≠ [] → below v ≠ [] → ∀ x ∈ vBndT.getD v [], uprightB v x = true := by
    decide +kernel
  refine ⟨List.isPerm_iff.1 (hcells v hv), h, ?_, ?_, ?_, ?_⟩
  · rcases hsides v hv h with g | g
    · left
      simp only [Bool.and_eq_true, Bool.or_eq_true, List.isEmpty_iff, List.all_eq_true,
        Bool.not_eq_true'] at g
      refine ⟨g.1.1.imp_right ring_of, g.1.2.imp_right ring_of, fun x hx hu => ?_⟩
      rw [upright_iff, g.2 x hx] at hu
      cases hu
    · right
      simp only [Bool.and_eq_true, Bool.or_eq_true, List.isEmpty_iff] at g
      exact ⟨g.1.imp_right ended_of, g.2.imp_right ended_of⟩
  · intro h1 h2
    obtain ⟨h3, h4⟩ := hstack v hv h1 h2
    refine ⟨h3, fun i j c d hc hd => ?_⟩
    have := h4 i (List.getElem?_eq_some_iff.1 hc).1 j (List.getElem?_eq_some_iff.1 hd).1
    rw [List.getD_eq_getElem?_getD, hc, List.getD_eq_getElem?_getD, hd] at this
    simp only [Option.getD_some] at this
    rw [nb_iff, this, decide_eq_true_eq]
  · intro h1 c hc
    rw [flatOf_eq]
    exact hone v hv h1 c hc
  · intro h1 h2 x hx
    rw [upright_iff]
    exact htwo v hv h1 h2 x hx

theorem around {v : Nat} (h : 2 ≤ (vCellsT.getD v []).length) : Around cube v := by
  have hv := several_lt h
  have k1 : ∀ v < 27, (vCellsT.getD v []).Nodup ∧ (vFacesT.getD v []).Nodup ∧
      (vBndT.getD v []).Nodup ∧
      vBndT.getD v [] = (vFacesT.getD v []).filter (fun x => !internalT.getD x false) ∧
      (vFacesT.getD v []).length ≤ 12 := by decide +kernel
  have k2 : ∀ v < 27, ∀ x ∈ vFacesT.getD v [], internalT.getD x false = true →
      ∃ c ∈ vCellsT.getD v [], ∃ d ∈ vCellsT.getD v [], c ≠ d ∧
        faceCellsT.getD x (-1, -1) = ((c : ℤ), (d : ℤ)) := by decide +kernel
  have k3 : ∀ v < 27, ∀ x ∈ vFacesT.getD v [], internalT.getD x false = false →
      ∃ c ∈ vCellsT.getD v [],
        ((faceCellsT.getD x (-1, -1)).1 = (c : ℤ) ∧ (faceCellsT.getD x (-1, -1)).2 < 0) ∨
        ((faceCellsT.getD x (-1, -1)).2 = (c : ℤ) ∧ (faceCellsT.getD x (-1, -1)).1 < 0) := by
    decide +kernel
  have k4 : ∀ v < 27, ∀ x ∈ vFacesT.getD v [], ∀ c ∈ vCellsT.getD v [], sideB x c = true →
      x ∈ cellFacesT.getD c [] := by decide +kernel
  have k5 : ∀ v < 27, ∀ c ∈ vCellsT.getD v [], ∀ d ∈ vCellsT.getD v [], c ≠ d → nbB c d = true →
      ∃ x ∈ vFacesT.getD v [], sideB x c = true ∧ sideB x d = true := by decide +kernel
  have k6 : ∀ v < 27, ∀ x ∈ vFacesT.getD v [], ∀ y ∈ vFacesT.getD v [],
      (faceCellsT.getD x (-1, -1) = faceCellsT.getD y (-1, -1) ∨
        faceCellsT.getD x (-1, -1) = (faceCellsT.getD y (-1, -1)).swap) →
      0 ≤ (faceCellsT.getD x (-1, -1)).1 → 0 ≤ (faceCellsT.getD x (-1, -1)).2 → x = y := by
    decide +kernel
  have k7 : ∀ v < 27, ∀ i < (vCellsT.getD v []).length, ∀ f < 3,
      cube.subFace v i f ∈ vFacesT.getD v [] ∧
        sideB (cube.subFace v i f) ((vCellsT.getD v []).getD i 0) = true := by decide +kernel
  have k8 : ∀ v < 27, ∀ i < (vCellsT.getD v []).length, ∀ x ∈ vFacesT.getD v [],
      sideB x ((vCellsT.getD v []).getD i 0) = true → ∃ f < 3, cube.subFace v i f = x := by
    decide +kernel
  have k9 : ∀ v < 27, ∀ i < (vCellsT.getD v []).length, ∀ f < 3, ∀ f' < 3,
      cube.subFace v i f = cube.subFace v i f' → f = f' := by decide +kernel
  obtain ⟨c1, c2, c3, c4, c5⟩ := k1 v hv
  refine ⟨c1, c2, c3, ?_, k2 v hv, ?_, ?_, ?_, ?_, ?_, ?_, ?_, c5⟩
  · intro x
    change x ∈ vBndT.getD v [] ↔ x ∈ vFacesT.getD v [] ∧ internalT.getD x false = false
    rw [c4, List.mem_filter]
    simp
  · intro x hx hi
    obtain ⟨c, hc, g⟩ := k3 v hv x hx hi
    rcases g with g | g
    · exact ⟨c, hc, _, g.2, Or.inl (Prod.ext g.1 rfl)⟩
    · exact ⟨c, hc, _, g.2, Or.inr (Prod.ext rfl g.1)⟩
  · intro x hx c hc hs
    exact k4 v hv x hx c hc ((side_iff x c).1 hs)
  · intro c hc d hd hcd hn
    obtain ⟨x, hx, h1, h2⟩ := k5 v hv c hc d hd hcd ((nb_iff c d).1 hn)
    exact ⟨x, hx, (side_iff x c).2 h1, (side_iff x d).2 h2⟩
  · intro x hx y hy c d hcd h1 h2 h3 h4
    have p : ∀ q : ℤ × ℤ, (q.1 = (c : ℤ) ∨ q.2 = (c : ℤ)) → (q.1 = (d : ℤ) ∨ q.2 = (d : ℤ)) →
        q = ((c : ℤ), (d : ℤ)) ∨ q = ((d : ℤ), (c : ℤ)) := by
      rintro ⟨a, b⟩ g1 g2
      simp only [Prod.mk.injEq] at g1 g2 ⊢
      omega
    have px := p _ h1 h2
    have py := p _ h3 h4
    change faceCellsT.getD x (-1, -1) = _ ∨ faceCellsT.getD x (-1, -1) = _ at px
    change faceCellsT.getD y (-1, -1) = _ ∨ faceCellsT.getD y (-1, -1) = _ at py
    refine k6 v hv x hx y hy ?_ ?_ ?_
    · rcases px with e | e <;> rcases py with e' | e' <;> rw [e, e'] <;> simp
    · rcases px with e | e <;> rw [e] <;> simp
    · rcases px with e | e <;> rw [e] <;> simp
  · intro i c f hc hf
    have := k7 v hv i (List.getElem?_eq_some_iff.1 hc).1 f hf
    change (vCellsT.getD v [])[i]? = some c at hc
    rw [List.getD_eq_getElem?_getD (l := vCellsT.getD v []), hc, Option.getD_some] at this
    exact ⟨this.1, (side_iff _ c).2 this.2⟩
  · intro i c x hc hx hs
    have := k8 v hv i (List.getElem?_eq_some_iff.1 hc).1 x hx
    change (vCellsT.getD v [])[i]? = some c at hc
    rw [List.getD_eq_getElem?_getD (l := vCellsT.getD v []), hc, Option.getD_some] at this
    exact this ((side_iff x c).1 hs)
  · intro i c f f' hc hf hf'
    exact k9 v hv i (List.getElem?_eq_some_iff.1 hc).1 f hf f' hf'

/-- The eight cubes are a mesh of vertical prisms in columns. -/
theorem columnar : Columnar cube := by
  have c0 : ∀ v < 27, vCellsT.getD v [] ≠ [] := by decide +kernel
  have c1 : ∀ v < 27, ∀ c ∈ vCellsT.getD v [], ∃ w < 27, edgeB v c w = true ∧ zs w ≠ zs v ∧
      ∀ w' < 27, edgeB v c w' = true → w' = w := by decide +kernel
  have c2 : ∀ v < 27, ∀ c ∈ vCellsT.getD v [], ∀ c' ∈ vCellsT.getD v [], ∀ w < 27,
      edgeB v c w = true → ∀ w' < 27,
      edgeB v c' w' = true → decide (zs v < zs w) = decide (zs v < zs w') → w = w' := by
    decide +kernel
  have c3 : ∀ v < 27, ∀ c ∈ vCellsT.getD v [], ∀ w < 27, edgeB v c w = true →
      c ∈ vCellsT.getD w [] ∧ edgeB w c v = true := by decide +kernel
  have c4 : ∀ v < 27, ∀ c ∈ vCellsT.getD v [], ∀ w < 27, edgeB v c w = true →
      ((cellFacesT.getD c []).filter fun f =>
        decide (v ∈ faceVertsT.getD f [] ∧ w ∈ faceVertsT.getD f [])).length = 2 := by decide +kernel
  have c5 : ∀ l ∈ faceVertsT, l.Nodup := by decide +kernel
  have c6 : ∀ v < 27, ∀ c ∈ vCellsT.getD v [], ∀ f ∈ cellFacesT.getD c [],
      v ∈ faceVertsT.getD f [] → f ∈ vFacesT.getD v [] ∧ sideB f c = true := by decide +kernel
  have c7 : ∀ v < 27, 2 ≤ (vCellsT.getD v []).length →
      (above v).isPerm ((vCellsT.getD v []).filter (overB v)) = true ∧
      (below v).isPerm ((vCellsT.getD v []).filter fun c => !overB v c) = true := by decide +kernel
  refine ⟨fun v hv => c0 v hv.1, ?_, ?_, ?_, ?_, ?_, ?_, fun v _ h => around h, ?_⟩
  · intro v hv c hc
    obtain ⟨w, hw, h1, h2, h3⟩ := c1 v hv.1 c hc
    exact ⟨w, hw, (edge_iff v c w).2 h1, (z_ne w v).2 h2,
      fun w' hw' => h3 w' (edge_lt hw') ((edge_iff v c w').1 hw')⟩
  · intro v hv c hc c' hc' w w' h1 h2 h3
    rw [z_lt, z_lt] at h3
    exact c2 v hv.1 c hc c' hc' w (edge_lt h1) ((edge_iff v c w).1 h1) w' (edge_lt h2)
      ((edge_iff v c' w').1 h2) (decide_eq_decide.2 h3)
  · intro v w hv hw c hc he
    obtain ⟨h1, h2⟩ := c3 v hv.1 c hc w hw.1 ((edge_iff v c w).1 he)
    exact ⟨h1, (edge_iff w c v).2 h2⟩
  · intro v hv c hc w he
    have := c4 v hv.1 c hc w (edge_lt he) ((edge_iff v c w).1 he)
    rw [← this]
    congr 1
  · intro f
    change (faceVertsT.getD f []).Nodup
    rcases Nat.lt_or_ge f faceVertsT.length with hf | hf
    · rw [List.getD_eq_getElem?_getD, List.getElem?_eq_getElem hf]
      exact c5 _ (List.getElem_mem hf)
    · rw [List.getD_eq_getElem?_getD, List.getElem?_eq_none hf]
      exact List.nodup_nil
  · intro v hv c hc f hf hvf
    obtain ⟨h1, h2⟩ := c6 v hv.1 c hc f hf hvf
    exact ⟨h1, (side_iff f c).2 h2⟩
  · intro v hv h
    obtain ⟨h1, h2⟩ := c7 v hv.1 h
    refine ⟨above v, below v, layered h, ?_, ?_⟩
    · rw [overs_eq]; exact List.isPerm_iff.1 h1
    · rw [unders_eq]; exact List.isPerm_iff.1 h2

end TDy.Traverse.Cube
