import Verif.Props.UGrid
import Mathlib.Algebra.BigOperators.Group.Finset.Basic
import Mathlib.Tactic.IntervalCases

/-!
# Importing a mesh: sizes, matrix rows and orderings
-/

namespace TDy.UGrid.Props

open TDy.UGrid.Spec TDy.UGrid.Proofs

/-! ## A concrete import -/

namespace UGridWitness

/-- Three tetrahedra in a row: cell `c` has the vertices `c .. c+3`. -/
def mesh : Mesh where
  nCells := 3
  vert := fun c k => ((c + k : Nat) : ℤ)
  numDual := fun c => match c with | 0 => 1 | 1 => 2 | 2 => 1 | _ => 0
  dual := fun c d => match c, d with | 0, _ => 1 | 1, 0 => 0 | 1, _ => 2 | _, _ => 1

/-- The partitioner moves cell 0 to the end. -/
def cell : Nat → Nat := fun p => match p with | 0 => 1 | 1 => 2 | 2 => 0 | n => n

/-- Two ranks; the first reads two cells and keeps one. -/
noncomputable def world : World where
  L := ⟨4, 2⟩
  ranks := 2
  fileOff := fun r => match r with | 0 => 0 | 1 => 2 | _ => 3
  off := fun r => match r with | 0 => 0 | 1 => 1 | _ => 3
  numbering := fun c => match c with | 0 => 2 | 1 => 0 | 2 => 1 | n => n
  ao := fun c => match c with | 0 => 2 | 1 => 0 | 2 => 1 | n => n
  sort := someSort
  cv := fun r i k => match r with | 0 => ((i + k : Nat) : ℤ) | _ => ((2 + i + k : Nat) : ℤ)
  ia := fun r i => match r, i with | 0, 0 => 0 | 0, 1 => 1 | 0, _ => 3 | _, 0 => 0 | _, _ => 1
  ja := fun r i => match r, i with | 0, 0 => 1 | 0, 1 => 0 | 0, _ => 2 | _, _ => 1

theorem setting : Setting world mesh cell := by
  refine ⟨rfl, ?_, rfl, rfl, ?_, rfl, ?_, ?_, ?_, someSort_sorts, ?_⟩
  · intro r; match r with
    | 0 => decide
    | 1 => decide
    | (r + 2) => exact le_refl _
  · intro r; match r with
    | 0 => decide
    | 1 => decide
    | (r + 2) => exact le_refl _
  · intro r hr
    have : r = 0 ∨ r = 1 := by change r < 2 at hr; omega
    rcases this with rfl | rfl
    · refine ⟨?_, ?_, ?_⟩
      · intro i _ k _
        change ((i + k : Nat) : ℤ) = ((0 + i + k : Nat) : ℤ)
        rw [Nat.zero_add]
      · intro i hi
        change i < 2 at hi
        interval_cases i <;> rfl
      · intro i hi d hd
        change i < 2 at hi
        interval_cases i
        · change d < 1 at hd; interval_cases d; rfl
        · change d < 2 at hd; interval_cases d <;> rfl
    · refine ⟨?_, ?_, ?_⟩
      · intro i _ k _; rfl
      · intro i hi
        change i < 1 at hi
        interval_cases i; rfl
      · intro i hi d hd
        change i < 1 at hi
        interval_cases i
        change d < 1 at hd; interval_cases d; rfl
  · refine ⟨?_, ?_, ?_, ?_⟩ <;> intro c hc <;> change c < 3 at hc <;> interval_cases c <;> decide
  · intro p hp; change p < 3 at hp; interval_cases p <;> rfl
  · refine ⟨?_, ?_⟩
    · intro c hc; change c < 3 at hc; interval_cases c <;> decide
    · intro c hc d hd
      change c < 3 at hc
      interval_cases c
      · change d < 1 at hd; interval_cases d; decide
      · change d < 2 at hd; interval_cases d <;> decide
      · change d < 1 at hd; interval_cases d; decide

end UGridWitness

open UGridWitness in
/-- Rank 0 owns cell 1 only and has both neighbours as ghosts. -/
example : (world.neighbours 0 0).num = 2
    ∧ world.natural 0 ((world.neighbours 0 0).ids 0).natAbs = 0
    ∧ world.natural 0 ((world.neighbours 0 0).ids 1).natAbs = 2
    ∧ (world.neighbours 0 0).ids 0 < 0 := by
  have h := C66_neighbours world mesh cell setting 0 (by decide) 0 (by decide)
  refine ⟨h.1, (h.2 0 (by decide)).2.1, (h.2 1 (by decide)).2.1, ?_⟩
  exact (h.2 0 (by decide)).2.2.2 (by decide)

open UGridWitness in
/-- The hypothesis of `C67_vertices` is met: rank 1 has vertices. -/
example : ∃ vs, world.vertices 1 = .ok vs ∧ (vs.cell 0).num = 4 := by
  have hn : world.natural 1 0 = (2 : Nat) :=
    (C66_natural world mesh cell setting 1 (by decide)).1 0 (by decide)
  obtain ⟨vs, e, h, _⟩ := C67_vertices world mesh cell setting 1 (by decide)
    ⟨0, by unfold World.ghosted; exact Nat.lt_of_lt_of_le (by decide : 0 < world.n 1) (Nat.le_add_right _ _),
      0, by decide, 2, hn, by decide⟩
  refine ⟨vs, e, ?_⟩
  rw [(h 0 (by unfold World.ghosted
               exact Nat.lt_of_lt_of_le (by decide : 0 < world.n 1) (Nat.le_add_right _ _)) 2 hn).1]
  rfl

open UGridWitness in
/-- The hypotheses of `C65_pack` are met by rank 0 of the example. -/
example : Packs mesh ⟨4, 2⟩ 0 2 (world.cv 0) (world.ia 0) (world.ja 0) :=
  setting.packs 0 (by decide)

/-! ## Sizes -/

theorem readRow_ok (f : File) (n : Nat)
    (h : ∀ i < n, f.cells (i*f.blocksize) = 4 ∨ f.cells (i*f.blocksize) = 5
      ∨ f.cells (i*f.blocksize) = 6 ∨ f.cells (i*f.blocksize) = 8) :
    ∃ cv, forN n (readRow f) (.ok (fun _ _ => 0)) = .ok cv
      ∧ ∀ i < n, ∀ j < f.blocksize - 1, cv i j = f.cells (i*f.blocksize + (1 + j)) - 1 := by
  induction n with
  | zero => exact ⟨_, rfl, fun i hi => by omega⟩
  | succ n ih =>
    obtain ⟨cv, e, hcv⟩ := ih (fun i hi => h i (by omega))
    simp only [forN]
    rw [e]
    unfold readRow
    simp only []
    rw [if_pos (h n (by omega))]
    refine ⟨_, rfl, ?_⟩
    intro i hi j hj
    by_cases hin : i = n
    · subst hin; rw [if_pos ⟨rfl, hj⟩]
    · rw [if_neg (fun h => hin h.1)]; exact hcv i (by omega) j hj

/-- A file with known cell types and three coordinates per vertex is read, with the vertices of every
cell as in the file (0-based). -/
theorem C105_read (f : File) (h3 : f.vertDim = 3)
    (h : ∀ i < f.nCells, f.cells (i*f.blocksize) = 4 ∨ f.cells (i*f.blocksize) = 5
      ∨ f.cells (i*f.blocksize) = 6 ∨ f.cells (i*f.blocksize) = 8) :
    ∃ g, readFile f = .ok g ∧ g.numCellsLocal = f.nCells ∧ g.numVertsLocal = f.nVerts
      ∧ g.maxVerts = f.blocksize - 1
      ∧ ∀ i < f.nCells, ∀ j < f.blocksize - 1,
        g.cellVerts i j = f.cells (i*f.blocksize + (1 + j)) - 1 := by
  obtain ⟨cv, e, hcv⟩ := readRow_ok f f.nCells h
  unfold readFile
  rw [e]
  simp only []
  rw [if_pos h3]
  exact ⟨_, rfl, rfl, by simp only []; rw [h3]; omega, rfl, hcv⟩

/-- A file with a cell of an unknown type is refused. -/
theorem C105_unknown_cell (f : File) (c : Nat) (hc : c < f.nCells)
    (h : f.cells (c*f.blocksize) ≠ 4 ∧ f.cells (c*f.blocksize) ≠ 5
      ∧ f.cells (c*f.blocksize) ≠ 6 ∧ f.cells (c*f.blocksize) ≠ 8) : ∃ g, readFile f = .err g := by
  have key : ∀ n, (c < n → ∃ cv, forN n (readRow f) (.ok (fun _ _ => 0)) = .err cv)
      ∧ ((∃ cv, forN n (readRow f) (.ok (fun _ _ => 0)) = .ok cv)
        ∨ ∃ cv, forN n (readRow f) (.ok (fun _ _ => 0)) = .err cv) := by
    intro n
    induction n with
    | zero => exact ⟨fun h => by omega, Or.inl ⟨_, rfl⟩⟩
    | succ n ih =>
      simp only [forN]
      obtain ⟨ih1, ih2⟩ := ih
      have step : ∀ r, ((∃ cv, r = Res.ok cv) ∨ ∃ cv, r = Res.err cv) →
          (∃ cv, readRow f n r = Res.ok cv) ∨ ∃ cv, readRow f n r = Res.err cv := by
        rintro r (⟨cv, rfl⟩ | ⟨cv, rfl⟩)
        · unfold readRow
          simp only []
          by_cases h : f.cells (n*f.blocksize) = 4 ∨ f.cells (n*f.blocksize) = 5
              ∨ f.cells (n*f.blocksize) = 6 ∨ f.cells (n*f.blocksize) = 8
          · rw [if_pos h]; exact Or.inl ⟨_, rfl⟩
          · rw [if_neg h]; exact Or.inr ⟨_, rfl⟩
        · exact Or.inr ⟨_, rfl⟩
      refine ⟨fun hcn => ?_, step _ ih2⟩
      by_cases e : c = n
      · subst e
        rcases ih2 with ⟨cv, e⟩ | ⟨cv, e⟩
        · rw [e]; unfold readRow; simp only []
          rw [if_neg (by rintro (h' | h' | h' | h') <;> omega)]
          exact ⟨_, rfl⟩
        · rw [e]; exact ⟨_, rfl⟩
      · obtain ⟨cv, e⟩ := ih1 (by omega)
        rw [e]; exact ⟨_, rfl⟩
  obtain ⟨cv, e⟩ := (key f.nCells).1 hc
  unfold readFile
  rw [e]
  exact ⟨_, rfl⟩

/-- The number of vertices that the grid stores for the whole mesh is three times the number of vertices
of the file: the count of coordinates. -/
theorem C105_violated (f : File) (h3 : f.vertDim = 3) (g : Grid) (hg : readFile f = .ok g) :
    g.numVertsGlobal = 3*f.nVerts := by
  unfold readFile at hg
  split at hg
  · rw [if_pos h3] at hg
    injection hg with hg
    rw [← hg]
    simp only []
    rw [h3, Nat.mul_comm]
  · cases hg
  · cases hg

/-- One hexahedron, vertices 1 to 8. -/
def hexFile : File := ⟨1, 9, fun p => match p with | 0 => 8 | p => (p : ℤ), 8, 3⟩

theorem hexFile_grid : ∃ g, readFile hexFile = .ok g ∧ g.numCellsLocal = 1 ∧ g.maxVerts = 8
    ∧ ∀ j < 8, g.cellVerts 0 j = (j : ℤ) := by
  obtain ⟨g, e, h1, _, h3, h4⟩ := C105_read hexFile rfl (by
    intro i hi; change i < 1 at hi; interval_cases i; decide)
  refine ⟨g, e, h1, h3, fun j hj => ?_⟩
  rw [h4 0 (by decide) j hj]
  interval_cases j <;> decide

/-- `C105_read` and `C105_violated` apply to that file. -/
example : ∃ g, readFile hexFile = .ok g ∧ g.numVertsGlobal = 24 := by
  obtain ⟨g, e, _⟩ := hexFile_grid
  exact ⟨g, e, C105_violated hexFile rfl g e⟩

theorem maxActive_spec (g : Grid) :
    (∀ c < g.numCellsLocal, activeVerts g c ≤ maxActive g)
      ∧ (∀ M, (∀ c < g.numCellsLocal, activeVerts g c ≤ M) → maxActive g ≤ M) := by
  unfold maxActive
  generalize g.numCellsLocal = n
  induction n with
  | zero => exact ⟨fun c hc => by omega, fun M _ => Nat.zero_le _⟩
  | succ n ih =>
    simp only [forN]
    obtain ⟨h1, h2⟩ := ih
    refine ⟨fun c hc => ?_, fun M hM => ?_⟩
    · by_cases h : forN n (fun i n => if n < activeVerts g i then activeVerts g i else n) 0
          < activeVerts g n
      · rw [if_pos h]
        by_cases e : c = n
        · rw [e]
        · have := h1 c (by omega); omega
      · rw [if_neg h]
        by_cases e : c = n
        · rw [e]; omega
        · exact h1 c (by omega)
    · have := h2 M (fun c hc => hM c (by omega))
      by_cases h : forN n (fun i n => if n < activeVerts g i then activeVerts g i else n) 0
          < activeVerts g n
      · rw [if_pos h]; exact hM n (by omega)
      · rw [if_neg h]; exact this

theorem activeVerts_le (g : Grid) (P : Nat → Bool) (c : Nat)
    (h : ∀ j < g.maxVerts, 0 < g.cellVerts c j → P j = true) :
    activeVerts g c ≤ ((List.range g.maxVerts).filter P).length := by
  unfold activeVerts
  revert h
  generalize g.maxVerts = n
  intro h
  induction n with
  | zero => exact Nat.zero_le _
  | succ n ih =>
    simp only [forN]
    have := ih (fun j hj => h j (by omega))
    rw [List.range_succ, List.filter_append, List.length_append]
    by_cases hp : 0 < g.cellVerts c n
    · rw [if_pos hp, List.filter_cons_of_pos (h n (by omega) hp)]
      simp only [List.filter_nil, List.length_singleton]; omega
    · rw [if_neg hp]; omega

theorem activeVerts_eq (g : Grid) (P : Nat → Bool) (c : Nat)
    (h : ∀ j < g.maxVerts, 0 < g.cellVerts c j ↔ P j = true) :
    activeVerts g c = ((List.range g.maxVerts).filter P).length := by
  unfold activeVerts
  revert h
  generalize g.maxVerts = n
  intro h
  induction n with
  | zero => rfl
  | succ n ih =>
    simp only [forN]
    have := ih (fun j hj => h j (by omega))
    rw [List.range_succ, List.filter_append, List.length_append]
    by_cases hp : 0 < g.cellVerts c n
    · rw [if_pos hp, List.filter_cons_of_pos ((h n (by omega)).1 hp)]
      simp only [List.filter_nil, List.length_singleton]; omega
    · rw [if_neg hp, List.filter_cons_of_neg (fun h' => hp ((h n (by omega)).2 h'))]
      simp only [List.filter_nil, List.length_nil]; omega

theorem maxActive_filter_split (n : Nat) (P Q : Nat → Bool) (j0 : Nat)
    (h : ∀ j < n, P j = true → Q j = true ∨ j = j0) :
    ((List.range n).filter P).length ≤ ((List.range n).filter Q).length + 1 := by
  induction n with
  | zero => simp
  | succ n ih =>
    rw [List.range_succ, List.filter_append, List.filter_append, List.length_append, List.length_append]
    have ih := ih (fun j hj => h j (by omega))
    by_cases hp : P n = true
    · rcases h n (by omega) hp with hq | hq
      · rw [List.filter_cons_of_pos hp, List.filter_cons_of_pos hq]
        simp only [List.filter_nil, List.length_singleton]; omega
      · subst hq
        have hsub : ((List.range n).filter P).length ≤ ((List.range n).filter Q).length := by
          have : ∀ k ≤ n, ((List.range k).filter P).length ≤ ((List.range k).filter Q).length := by
            intro k
            induction k with
            | zero => intro _; exact le_refl _
            | succ k ihk =>
              intro hk
              have := ihk (by omega)
              rw [List.range_succ, List.filter_append, List.filter_append, List.length_append,
                List.length_append]
              by_cases hpk : P k = true
              · rcases h k (by omega) hpk with hq | hq
                · rw [List.filter_cons_of_pos hpk, List.filter_cons_of_pos hq]
                  simp only [List.filter_nil, List.length_singleton]; omega
                · omega
              · rw [List.filter_cons_of_neg hpk]
                simp only [List.filter_nil, List.length_nil]; omega
          exact this n (le_refl _)
        rw [List.filter_cons_of_pos hp]
        simp only [List.filter_nil, List.length_singleton]; omega
    · rw [List.filter_cons_of_neg hp]
      simp only [List.filter_nil, List.length_nil]; omega

/-- The number found is the largest number of vertices of a cell, except that a cell containing the first
vertex of the file counts one less: it is never too large, it is exact if some largest cell does not
contain the first vertex, and it is at most one too small if no cell lists the first vertex twice. -/
theorem C68_max_vertices_partial (f : File) (h3 : f.vertDim = 3)
    (h : ∀ i < f.nCells, f.cells (i*f.blocksize) = 4 ∨ f.cells (i*f.blocksize) = 5
      ∨ f.cells (i*f.blocksize) = 6 ∨ f.cells (i*f.blocksize) = 8) (M : Nat) (hM : IsMaxVerts f M) :
    ∃ g, readFile f = .ok g ∧ maxActive g ≤ M
      ∧ ((∃ c < f.nCells, fileVerts f c = M ∧ ∀ j < f.blocksize - 1,
          f.cells (c*f.blocksize + (1 + j)) ≠ 1) → maxActive g = M)
      ∧ ((∀ c < f.nCells, ∃ j0, ∀ j < f.blocksize - 1, f.cells (c*f.blocksize + (1 + j)) = 1 → j = j0) →
          M ≤ maxActive g + 1) := by
  obtain ⟨g, e, h1, _, h2, hcv⟩ := C105_read f h3 h
  obtain ⟨s1, s2⟩ := maxActive_spec g
  have hle : maxActive g ≤ M := by
    refine s2 M (fun c hc => ?_)
    rw [h1] at hc
    refine le_trans ?_ (hM.1 c hc)
    unfold fileVerts
    rw [← h2]
    refine activeVerts_le g _ c (fun j hj hp => ?_)
    rw [h2] at hj
    rw [hcv c hc j hj] at hp
    exact decide_eq_true (by omega)
  refine ⟨g, e, hle, ?_, ?_⟩
  · rintro ⟨c, hc, e1, e2⟩
    have : activeVerts g c = M := by
      rw [← e1]
      unfold fileVerts
      rw [← h2]
      refine activeVerts_eq g _ c (fun j hj => ?_)
      rw [h2] at hj
      have := e2 j hj
      rw [hcv c hc j hj, decide_eq_true_eq]
      omega
    have := s1 c (by rw [h1]; exact hc)
    omega
  · intro hone
    obtain ⟨c, hc, e1⟩ := hM.2
    obtain ⟨j0, hj0⟩ := hone c hc
    have ha : activeVerts g c
        = ((List.range g.maxVerts).filter (fun j => decide (0 < g.cellVerts c j))).length :=
      activeVerts_eq g _ c (fun j _ => by rw [decide_eq_true_eq])
    have hs := maxActive_filter_split g.maxVerts
      (fun j => decide (1 ≤ f.cells (c*f.blocksize + (1 + j))))
      (fun j => decide (0 < g.cellVerts c j)) j0 (by
        intro j hj hp
        rw [h2] at hj
        rw [decide_eq_true_eq] at hp
        by_cases e : f.cells (c*f.blocksize + (1 + j)) = 1
        · exact Or.inr (hj0 j hj e)
        · left
          rw [decide_eq_true_eq, hcv c hc j hj]
          omega)
    rw [← ha, h2] at hs
    change fileVerts f c ≤ _ at hs
    have := s1 c (by rw [h1]; exact hc)
    omega

/-- The rows of the adjacency matrix are, for each cell, its vertices within the width used, in order. -/
theorem C106_adjacency (g : Grid) (ncol : Nat) :
    (adjacency g ncol).i 0 = 0
      ∧ ∀ c < g.numCellsLocal,
        (adjacency g ncol).i (c + 1) = (adjacency g ncol).i c + (present (g.cellVerts c) ncol).length
        ∧ ∀ j < (present (g.cellVerts c) ncol).length,
          (present (g.cellVerts c) ncol)[j]? = some ((adjacency g ncol).j ((adjacency g ncol).i c + j)) := by
  have row : ∀ (c k : Nat) (s : Adjacency),
      (forN k (adjacencyStep g c) s).i = s.i
        ∧ (forN k (adjacencyStep g c) s).count = s.count + (present (g.cellVerts c) k).length
        ∧ (∀ j < s.count, (forN k (adjacencyStep g c) s).j j = s.j j)
        ∧ ∀ j < (present (g.cellVerts c) k).length,
          (present (g.cellVerts c) k)[j]? = some ((forN k (adjacencyStep g c) s).j (s.count + j)) := by
    intro c k s
    induction k with
    | zero => exact ⟨rfl, rfl, fun j _ => rfl, fun j hj => by simp [present] at hj⟩
    | succ k ih =>
      obtain ⟨i1, i2, i3, i4⟩ := ih
      simp only [forN]
      rw [present_succ]
      set u := forN k (adjacencyStep g c) s with hu
      unfold adjacencyStep
      by_cases h : 0 ≤ g.cellVerts c k
      · rw [if_pos h, if_pos h]
        refine ⟨i1, ?_, ?_, ?_⟩
        · simp only [List.length_append, List.length_singleton]; omega
        · intro j hj
          simp only []
          rw [wr_other _ _ (by omega)]; exact i3 j hj
        · intro j hj
          rw [List.length_append, List.length_singleton] at hj
          simp only []
          by_cases e : j = (present (g.cellVerts c) k).length
          · rw [e, ← i2, wr_same, List.getElem?_append_right (le_refl _), Nat.sub_self]; rfl
          · rw [wr_other _ _ (by omega), List.getElem?_append_left (by omega)]
            exact i4 j (by omega)
      · rw [if_neg h, if_neg h, List.append_nil]
        exact ⟨i1, i2, i3, i4⟩
  have key : ∀ n, (forN n (fun c s => let s' := forN ncol (adjacencyStep g c) s
        ⟨wr s'.i (c + 1) s'.count, s'.j, s'.count⟩) (⟨wr (fun _ => 0) 0 0, fun _ => 0, 0⟩ : Adjacency)).count
        = (forN n (fun c s => let s' := forN ncol (adjacencyStep g c) s
        ⟨wr s'.i (c + 1) s'.count, s'.j, s'.count⟩) (⟨wr (fun _ => 0) 0 0, fun _ => 0, 0⟩ : Adjacency)).i n
      ∧ (forN n (fun c s => let s' := forN ncol (adjacencyStep g c) s
        ⟨wr s'.i (c + 1) s'.count, s'.j, s'.count⟩) (⟨wr (fun _ => 0) 0 0, fun _ => 0, 0⟩ : Adjacency)).i 0 = 0
      ∧ ∀ c < n, ∃ b, (forN n (fun c s => let s' := forN ncol (adjacencyStep g c) s
          ⟨wr s'.i (c + 1) s'.count, s'.j, s'.count⟩) (⟨wr (fun _ => 0) 0 0, fun _ => 0, 0⟩ : Adjacency)).i c = b
        ∧ (forN n (fun c s => let s' := forN ncol (adjacencyStep g c) s
          ⟨wr s'.i (c + 1) s'.count, s'.j, s'.count⟩) (⟨wr (fun _ => 0) 0 0, fun _ => 0, 0⟩ : Adjacency)).i (c + 1)
          = b + (present (g.cellVerts c) ncol).length
        ∧ b + (present (g.cellVerts c) ncol).length
          ≤ (forN n (fun c s => let s' := forN ncol (adjacencyStep g c) s
          ⟨wr s'.i (c + 1) s'.count, s'.j, s'.count⟩) (⟨wr (fun _ => 0) 0 0, fun _ => 0, 0⟩ : Adjacency)).count
        ∧ ∀ j < (present (g.cellVerts c) ncol).length, (present (g.cellVerts c) ncol)[j]?
          = some ((forN n (fun c s => let s' := forN ncol (adjacencyStep g c) s
          ⟨wr s'.i (c + 1) s'.count, s'.j, s'.count⟩)
            (⟨wr (fun _ => 0) 0 0, fun _ => 0, 0⟩ : Adjacency)).j (b + j)) := by
    intro n
    induction n with
    | zero => exact ⟨by simp [forN, wr], by simp [forN, wr], fun c hc => by omega⟩
    | succ n ih =>
      simp only [forN]
      set s := forN n (fun c s => (⟨wr (forN ncol (adjacencyStep g c) s).i (c + 1)
        (forN ncol (adjacencyStep g c) s).count, (forN ncol (adjacencyStep g c) s).j,
        (forN ncol (adjacencyStep g c) s).count⟩ : Adjacency)) ⟨wr (fun _ => 0) 0 0, fun _ => 0, 0⟩ with hs
      obtain ⟨k1, k2, k3⟩ := ih
      obtain ⟨r1, r2, r3, r4⟩ := row n ncol s
      refine ⟨by rw [wr_same], by rw [wr_other _ _ (by omega), r1, k2], ?_⟩
      intro c hc
      by_cases e : c = n
      · subst e
        refine ⟨s.count, by rw [wr_other _ _ (by omega), r1, k1], by rw [wr_same, r2], by rw [r2], r4⟩
      · obtain ⟨b, b1, b2, b3, b4⟩ := k3 c (by omega)
        refine ⟨b, by rw [wr_other _ _ (by omega), r1, b1], by rw [wr_other _ _ (by omega), r1, b2],
          by rw [r2]; omega, ?_⟩
        intro j hj
        rw [r3 _ (by omega)]
        exact b4 j hj
  obtain ⟨_, k2, k3⟩ := key g.numCellsLocal
  refine ⟨k2, fun c hc => ?_⟩
  obtain ⟨b, b1, b2, _, b4⟩ := k3 c hc
  unfold adjacency
  rw [b1]
  exact ⟨b2, b4⟩

/-- For a mesh of one hexahedron the number found is 7, and the adjacency matrix that PETSc gets has
only 7 of its 8 vertices. -/
theorem C68_violated : ∃ g, readFile hexFile = .ok g ∧ IsMaxVerts hexFile 8 ∧ maxActive g = 7
    ∧ (adjacency g (maxActive g)).i 1 = 7 := by
  obtain ⟨g, e, h1, h2, h3⟩ := hexFile_grid
  have hact : activeVerts g 0 = 7 := by
    rw [activeVerts_eq g (fun j => decide (0 < j)) 0 (fun j hj => by
      rw [h2] at hj
      rw [h3 j hj, decide_eq_true_eq]
      omega), h2]
    rfl
  have hmax : maxActive g = 7 := by
    unfold maxActive
    rw [h1]
    simp only [forN]
    rw [hact]
    rfl
  refine ⟨g, e, ⟨?_, 0, by decide, by decide⟩, hmax, ?_⟩
  · intro c hc; change c < 1 at hc; interval_cases c; decide
  · rw [hmax]
    have hc : present (g.cellVerts 0) 7 = present (fun j => (j : ℤ)) 7 := by
      unfold present
      congr 1
      refine List.map_congr_left (fun j hj => h3 j ?_)
      rw [List.mem_range] at hj; omega
    obtain ⟨a0, a1⟩ := C106_adjacency g 7
    rw [(a1 0 (by omega)).1, a0, hc]
    decide

/-- Two tetrahedra: the second does not contain the first vertex. -/
def tetFile : File := ⟨2, 5, fun p => match p with
  | 0 => 4 | 1 => 1 | 2 => 2 | 3 => 3 | 4 => 4 | 5 => 4 | 6 => 2 | 7 => 3 | 8 => 4 | _ => 5, 5, 3⟩

/-- The hypotheses of `C68_max_vertices_partial` are met, with the exact answer. -/
example : ∃ g, readFile tetFile = .ok g ∧ maxActive g = 4 := by
  have hM : IsMaxVerts tetFile 4 := by
    refine ⟨?_, 0, by decide, by decide⟩
    intro c hc; change c < 2 at hc; interval_cases c <;> decide
  obtain ⟨g, e, _, h, _⟩ := C68_max_vertices_partial tetFile rfl (by
    intro i hi; change i < 2 at hi; interval_cases i <;> decide) 4 hM
  refine ⟨g, e, h ⟨1, by decide, by decide, ?_⟩⟩
  intro j hj; change j < 4 at hj; interval_cases j <;> decide

/-- The number of neighbours per record is the largest number of neighbours of a cell. -/
theorem C106_max_dual (n : Nat) (ia : Nat → Nat) :
    (∀ c < n, ia (c + 1) - ia c ≤ maxDual n ia)
      ∧ (0 < n → ∃ c < n, maxDual n ia = ia (c + 1) - ia c) := by
  unfold maxDual
  induction n with
  | zero => exact ⟨fun c hc => by omega, fun h => by omega⟩
  | succ n ih =>
    simp only [forN]
    obtain ⟨h1, h2⟩ := ih
    by_cases h : forN n (fun c m => if m < ia (c + 1) - ia c then ia (c + 1) - ia c else m) 0
        < ia (n + 1) - ia n
    · rw [if_pos h]
      refine ⟨fun c hc => ?_, fun _ => ⟨n, by omega, rfl⟩⟩
      by_cases e : c = n
      · rw [e]
      · have := h1 c (by omega); omega
    · rw [if_neg h]
      refine ⟨fun c hc => ?_, fun _ => ?_⟩
      · by_cases e : c = n
        · rw [e]; omega
        · exact h1 c (by omega)
      · rcases Nat.eq_zero_or_pos n with h0 | h0
        · subst h0
          refine ⟨0, by omega, ?_⟩
          simp only [forN] at h ⊢
          omega
        · obtain ⟨c, hc, e⟩ := h2 h0
          exact ⟨c, by omega, e⟩

/-! ## Matrix rows -/

theorem nnz_apply (nb : Neighbours) (P : Nat → Prop) [DecidablePred P]
    (h : ∀ k < nb.num, nb.ids k < 0 ↔ ¬ P k) :
    nnz nb = (1 + ((Finset.range nb.num).filter P).card,
      ((Finset.range nb.num).filter (fun k => ¬ P k)).card) := by
  unfold nnz
  revert h
  generalize nb.num = n
  intro h
  induction n with
  | zero => rfl
  | succ n ih =>
    simp only [forN]
    rw [ih (fun k hk => h k (by omega)), Finset.range_add_one, Finset.filter_insert,
      Finset.filter_insert]
    have hn := h n (by omega)
    by_cases hp : P n
    · rw [if_pos (by by_contra hc; exact (hn.1 (by omega)) hp), if_pos hp, if_neg (not_not.2 hp),
        Finset.card_insert_of_notMem (by simp)]
      rfl
    · rw [if_neg (by have := hn.2 hp; omega), if_neg hp, if_pos hp,
        Finset.card_insert_of_notMem (by simp)]

/-- End to end: the preallocation of the row of a cell is one block for the cell and one for each
neighbour, split by whether the rank owns the neighbour. -/
theorem C69_preallocation (w : World) (m : Mesh) (cell : Nat → Nat) (hw : Setting w m cell) (r : Nat)
    (hr : r < w.ranks) (i : Nat) (hi : i < w.n r) :
    nnz (w.neighbours r i) =
      (1 + ((Finset.range (m.numDual (cell (w.off r + i)))).filter
          (fun d => Owns w r (w.numbering (m.dual (cell (w.off r + i)) d)))).card,
        ((Finset.range (m.numDual (cell (w.off r + i)))).filter
          (fun d => ¬ Owns w r (w.numbering (m.dual (cell (w.off r + i)) d)))).card) := by
  obtain ⟨h1, h2⟩ := C66_neighbours w m cell hw r hr i hi
  rw [← h1]
  exact nnz_apply (w.neighbours r i) (fun d => Owns w r (w.numbering (m.dual (cell (w.off r + i)) d)))
    (fun k hk => (h2 k (by rw [← h1]; exact hk)).2.2)

open UGridWitness in
/-- Cell 1 on rank 0: the diagonal block and two off-diagonal ones; cell 0 on rank 1: only off-diagonal. -/
example : nnz (world.neighbours 0 0) = (1, 2) ∧ nnz (world.neighbours 1 0) = (1, 1) := by
  refine ⟨?_, ?_⟩
  · rw [C69_preallocation world mesh cell setting 0 (by decide) 0 (by decide)]; decide
  · rw [C69_preallocation world mesh cell setting 1 (by decide) 0 (by decide)]; decide

/-! ## Natural and global order -/

/-- Natural order has the value of cell `k` at position `k`. -/
theorem C70_natural_position {α : Type} (n ndof : Nat) (place cell : Nat → Nat)
    (h : Numbering n place cell) (g nat : Nat → α) (k : Nat) (hk : k < n) (j : Nat) (hj : j < ndof) :
    globalToNatural n ndof cell g nat (k*ndof + j) = g (place k*ndof + j) := by
  have := (blocks_apply n ndof cell (fun p k => g (p*ndof + k)) (fun a ha b hb e => by
    rw [← h.placeCell a ha, ← h.placeCell b hb, e]) nat).1 (place k) (h.placeLt k hk) j hj
  rw [h.cellPlace k hk] at this
  exact this

/-- Global order has at the place of a cell its natural value. -/
theorem C70_global_position {α : Type} (n ndof : Nat) (place cell : Nat → Nat)
    (_h : Numbering n place cell) (nat g : Nat → α) (p : Nat) (hp : p < n) (j : Nat) (hj : j < ndof) :
    naturalToGlobal n ndof cell nat g (p*ndof + j) = nat (cell p*ndof + j) :=
  (blocks_apply n ndof (fun p => p) (fun p k => nat (cell p*ndof + k)) (fun _ _ _ _ e => e) g).1 p hp j hj

/-- There and back is the identity, whatever was in the target vectors before. -/
theorem C70_round_trip {α : Type} (n ndof : Nat) (place cell : Nat → Nat) (h : Numbering n place cell)
    (g nat g' : Nat → α) (q : Nat) (hq : q < n*ndof) :
    naturalToGlobal n ndof cell (globalToNatural n ndof cell g nat) g' q = g q := by
  have hd : 0 < ndof := by
    rcases Nat.eq_zero_or_pos ndof with h | h
    · rw [h] at hq; omega
    · exact h
  have hp : q/ndof < n := Nat.div_lt_of_lt_mul (by rw [Nat.mul_comm]; exact hq)
  have hj := Nat.mod_lt q hd
  have e : q = q/ndof*ndof + q%ndof := by rw [Nat.mul_comm]; exact (Nat.div_add_mod q ndof).symm
  rw [e, C70_global_position n ndof place cell h _ _ _ hp _ hj,
    C70_natural_position n ndof place cell h _ _ _ (h.cellLt _ hp) _ hj, h.placeCell _ hp]

open UGridWitness in
/-- The numbering of the example is one, and moves cells. -/
example : Numbering 3 world.numbering cell ∧ cell 0 ≠ 0 := ⟨setting.numbering, by decide⟩

/-- End to end: the local vector that a rank gets holds for each local cell, owned or ghost, the value of
the cell with its natural number. -/
theorem C107_local_values {α : Type} (w : World) (m : Mesh) (cell : Nat → Nat) (hw : Setting w m cell)
    (r : Nat) (hr : r < w.ranks) (ndof : Nat) (g loc : Nat → α) (l : Nat) (hl : l < w.ghosted r)
    (c : Nat) (hc : w.natural r l = c) (j : Nat) (hj : j < ndof) :
    globalToLocal (w.ghosted r) ndof
        (ghostedOrder (w.off r) (w.n r) (w.local r).ghostIds (w.local r).numGhost) g loc (l*ndof + j)
      = g (w.numbering c*ndof + j) := by
  have hgo : ∀ l < w.ghosted r,
      ghostedOrder (w.off r) (w.n r) (w.local r).ghostIds (w.local r).numGhost l = petscOf w r l := by
    have key : ∀ k, (∀ i < k, forN k (fun i a => wr a (i + w.n r) ((w.local r).ghostIds i))
          (forN (w.n r) (fun i a => wr a i ((i : ℤ) + w.off r)) (fun _ => 0)) (i + w.n r)
            = (w.local r).ghostIds i)
        ∧ ∀ i < w.n r, forN k (fun i a => wr a (i + w.n r) ((w.local r).ghostIds i))
          (forN (w.n r) (fun i a => wr a i ((i : ℤ) + w.off r)) (fun _ => 0)) i = (i : ℤ) + w.off r := by
      intro k
      induction k with
      | zero =>
        refine ⟨fun i hi => by omega, fun i hi => ?_⟩
        simp only [forN]
        rw [forN_fill (w.n r) (fun i => (i : ℤ) + w.off r), if_pos hi]
      | succ k ih =>
        simp only [forN]
        refine ⟨fun i hi => ?_, fun i hi => ?_⟩
        · by_cases e : i = k
          · rw [e, wr_same]
          · rw [wr_other _ _ (by omega)]; exact ih.1 i (by omega)
        · rw [wr_other _ _ (by omega)]; exact ih.2 i hi
    intro l hl
    unfold World.ghosted at hl
    unfold ghostedOrder petscOf
    by_cases h : l < w.n r
    · rw [if_pos h, (key _).2 l h]; ring
    · rw [if_neg h]
      have := (key (w.local r).numGhost).1 (l - w.n r) (by omega)
      rw [show l - w.n r + w.n r = l by omega] at this
      exact this
  have hb := (blocks_apply (w.ghosted r) ndof (fun i => i)
    (fun i k => g ((ghostedOrder (w.off r) (w.n r) (w.local r).ghostIds (w.local r).numGhost i).toNat*ndof
      + k)) (fun _ _ _ _ e => e) loc).1 l hl j hj
  refine hb.trans ?_
  rw [hgo l hl]
  obtain ⟨p, hp, e1, e2⟩ := petscOf_lt w m cell hw r hr l hl
  rw [e1, Int.toNat_natCast]
  have : c = cell p := by rw [hc] at e2; exact_mod_cast e2
  rw [this, hw.numbering.placeCell p hp]

open UGridWitness in
/-- Rank 1's first cell is natural cell 2, whose value sits at PETSc number 1. -/
example (g loc : Nat → ℤ) :
    globalToLocal (world.ghosted 1) 1
      (ghostedOrder (world.off 1) (world.n 1) (world.local 1).ghostIds (world.local 1).numGhost) g loc
        (0*1 + 0) = g (1*1 + 0) :=
  C107_local_values world mesh cell setting 1 (by decide) 1 g loc 0
    (by unfold World.ghosted
        exact Nat.lt_of_lt_of_le (by decide : 0 < world.n 1) (Nat.le_add_right _ _)) 2
    ((C66_natural world mesh cell setting 1 (by decide)).1 0 (by decide)) 0 (by omega)

end TDy.UGrid.Props
