import Verif.Spec.MeshSizes
import Mathlib.Algebra.Order.BigOperators.Group.Finset
import Mathlib.Data.Finset.Lattice.Fold
import Mathlib.Tactic.Ring
import Mathlib.Tactic.IntervalCases

/-!
# C164: The transmissibilities of every vertex fit into their arrays
-/

namespace TDy.Sizes.Props

open TDy TDy.Sizes TDy.Sizes.Spec Finset

/-- The count is the size of a set of positions. -/
theorem count_eq (s : Saved) (a oS oE : Nat) :
    count s a oS oE = ((range (s.size a)).filter
      (fun i => oS ≤ s.closure a (2*i) ∧ s.closure a (2*i) < oE)).card := by
  unfold count
  induction s.size a with
  | zero => rfl
  | succ n ih =>
    rw [forN, ih, range_add_one, filter_insert]
    split
    · rw [card_insert_of_notMem (by simp)]
    · rfl

/-- The maximum is the supremum of the counts. -/
theorem maxSharing_eq (s : Saved) (aS aE oS oE : Nat) :
    maxSharing s aS aE oS oE = (range (aE - aS)).sup (fun i => count s (aS + i) oS oE) := by
  unfold maxSharing
  induction aE - aS with
  | zero => rfl
  | succ n ih => rw [forN, ih, range_add_one, sup_insert, max_comm]

/-- The count at a vertex is the number of elements that contain it. -/
theorem count_elements {M : Mesh} {s : Saved} (h : SavedOf M s) (v : Nat) (h1 : M.vS ≤ v)
    (h2 : v < M.vE) (oS oE : Nat)
    (ho : ∀ o, oS ≤ o → o < oE → (M.cS ≤ o ∧ o < M.cE ∨ M.fS ≤ o ∧ o < M.fE)) :
    count s v oS oE = ((Ico oS oE).filter (fun o => M.at' o v)).card := by
  rw [count_eq]
  apply card_bij (fun i _ => s.closure v (2*i))
  · intro i hi
    simp only [mem_filter, mem_range] at hi
    simp only [mem_filter, mem_Ico]
    exact ⟨hi.2, (h.lists v h1 h2 _ (ho _ hi.2.1 hi.2.2)).1 ⟨i, hi.1, rfl⟩⟩
  · intro i hi j hj e
    simp only [mem_filter, mem_range] at hi hj
    exact h.once v h1 h2 i hi.1 j hj.1 e
  · intro o hO
    simp only [mem_filter, mem_Ico] at hO
    obtain ⟨i, hi, e⟩ := (h.lists v h1 h2 o (ho o hO.1.1 hO.1.2)).2 hO.2
    refine ⟨i, ?_, e⟩
    simp only [mem_filter, mem_range]
    exact ⟨hi, by rw [e]; exact hO.1⟩

/-- C164.  The numbers stored with the mesh are the largest numbers of cells and of faces that meet at
a vertex, exactly. -/
theorem C164_largest_numbers (M : Mesh) (s : Saved) (h : SavedOf M s) :
    maxCells s = (Ico M.vS M.vE).sup (fun v => (cellsAt M v).card) ∧
    maxFaces s = (Ico M.vS M.vE).sup (fun v => (facesAt M v).card) := by
  obtain ⟨a, b, c, d, e, f⟩ := h.ranges
  have key : ∀ oS oE, (∀ o, oS ≤ o → o < oE → (M.cS ≤ o ∧ o < M.cE ∨ M.fS ≤ o ∧ o < M.fE)) →
      maxSharing s s.vS s.vE oS oE =
        (Ico M.vS M.vE).sup (fun v => ((Ico oS oE).filter (fun o => M.at' o v)).card) := by
    intro oS oE ho
    rw [maxSharing_eq, a, b]
    apply le_antisymm
    · apply Finset.sup_le
      intro i hi
      rw [mem_range] at hi
      rw [count_elements h (M.vS + i) (by omega) (by omega) oS oE ho]
      exact Finset.le_sup (f := fun v => ((Ico oS oE).filter (fun o => M.at' o v)).card)
        (by rw [mem_Ico]; omega)
    · apply Finset.sup_le
      intro v hv
      rw [mem_Ico] at hv
      rw [← count_elements h v hv.1 hv.2 oS oE ho]
      have := Finset.le_sup (f := fun i => count s (M.vS + i) oS oE) (s := range (M.vE - M.vS))
        (b := v - M.vS) (by rw [mem_range]; omega)
      rwa [show M.vS + (v - M.vS) = v by omega] at this
  constructor
  · unfold maxCells
    rw [key s.cS s.cE (fun o h1 h2 => Or.inl (by omega)), e, f]
    rfl
  · unfold maxFaces
    rw [key s.fS s.fE (fun o h1 h2 => Or.inr (by omega)), c, d]
    rfl

/-- At most two cells per face. -/
theorem cells_le {M : Mesh} (h : Proper M) (v : Nat) :
    (cellsAt M v).card ≤ 2*(facesAt M v).card := by
  classical
  have hs : cellsAt M v ⊆ (facesAt M v).biUnion M.sides := by
    intro c hc
    obtain ⟨f, hf, hcf⟩ := h.cell_has_face v c hc
    exact mem_biUnion.2 ⟨f, hf, hcf⟩
  refine le_trans (card_le_card hs) (le_trans card_biUnion_le ?_)
  refine le_trans (sum_le_sum (fun f _ => h.two_sides f)) ?_
  rw [sum_const, nsmul_eq_mul, mul_comm]; rfl

/-- A loop of defined steps is defined, and keeps the sizes. -/
theorem loop_ok (n : Nat) (P : Array3 → Prop) (body : Nat → Array3 → Res Array3)
    (hb : ∀ i < n, ∀ a, P a → ∃ a', body i a = .ok a' ∧ P a') (a : Array3) (ha : P a) :
    ∃ a', forN n (fun i (r : Res Array3) => r.bind fun a => body i a) (.ok a) = .ok a' ∧ P a' := by
  induction n with
  | zero => exact ⟨a, rfl, ha⟩
  | succ n ih =>
    obtain ⟨b, hb1, hb2⟩ := ih fun i hi => hb i (by omega)
    obtain ⟨c, hc1, hc2⟩ := hb n (by omega) b hb2
    exact ⟨c, by rw [forN, hb1]; exact hc1, hc2⟩

/-- The sizes of an array. -/
def HasSizes (n1 n2 n3 : Nat) (a : Array3) : Prop := a.n1 = n1 ∧ a.n2 = n2 ∧ a.n3 = n3

theorem write_ok {n1 n2 n3 v r c : Nat} (a : Array3) (h : HasSizes n1 n2 n3 a) (hv : v < n1)
    (hr : r < n2) (hc : c < 8*n3) : ∃ a', write a v r c = .ok a' ∧ HasSizes n1 n2 n3 a' := by
  obtain ⟨h1, h2, h3⟩ := h
  refine ⟨_, by unfold write; rw [if_pos ⟨by rw [h1]; exact hv, by rw [h2]; exact hr,
    by rw [h3]; exact hc⟩], ?_⟩
  exact ⟨h1, h2, h3⟩

theorem fill_ok (nv n2 n3 : Nat) (x : Nat → Vtx) (dir : Bool) (a : Array3)
    (h : HasSizes nv n2 n3 a)
    (hw : ∀ v < nv, (written dir (x v)).1 ≤ n2 ∧ (written dir (x v)).2 ≤ 8*n3) :
    ∃ a', fill nv x dir a = .ok a' := by
  obtain ⟨a', h1, -⟩ := loop_ok nv (HasSizes nv n2 n3) (fun v a =>
    forN (written dir (x v)).1 (fun i (r : Res Array3) => r.bind fun a =>
      forN (written dir (x v)).2 (fun j (r : Res Array3) => r.bind fun a => write a v i j)
        (.ok a)) (.ok a)) (by
    intro v hv a ha
    apply loop_ok _ (HasSizes nv n2 n3) (fun i a =>
      forN (written dir (x v)).2 (fun j (r : Res Array3) => r.bind fun a => write a v i j) (.ok a))
      _ a ha
    intro i hi a ha
    apply loop_ok _ (HasSizes nv n2 n3) (fun j a => write a v i j) _ a ha
    intro j hj a ha
    exact write_ok a ha hv (by have := (hw v hv).1; omega) (by have := (hw v hv).2; omega)) a h
  exact ⟨a', h1⟩

/-- Rows and columns that are written, in terms of the mesh. -/
theorem written_le {M : Mesh} {x : Nat → Vtx} (hx : Describes M x) (dir : Bool) (v : Nat)
    (hv : v < M.vE - M.vS) :
    (written dir (x v)).1 ≤ (facesAt M (M.vS + v)).card ∧
    (written dir (x v)).2 ≤ (cellsAt M (M.vS + v)).card + (facesAt M (M.vS + v)).card := by
  have hb : (boundaryAt M (M.vS + v)).card ≤ (facesAt M (M.vS + v)).card :=
    card_le_card (filter_subset _ _)
  have h1 := hx.cells v hv
  have h2 := hx.faces v hv
  have h3 := hx.up_dn v hv
  have h4 := hx.corner v hv
  have h5 := hx.used v hv
  unfold written
  split
  · exact ⟨Nat.zero_le _, Nat.zero_le _⟩
  · split
    · cases dir <;> simp only [Bool.false_eq_true, if_false, if_true] <;> constructor <;> omega
    · rename_i hn
      have hc : (x v).cells = 1 := by
        have : ¬ ((x v).cells > 1) := fun h => hn (Or.inr h)
        omega
      have hf := h4 hc
      split
      · dsimp only; constructor <;> omega
      · exact ⟨Nat.zero_le _, Nat.zero_le _⟩

theorem faces_le_max {M : Mesh} {s : Saved} (h : SavedOf M s) (v : Nat) (hv : v < M.vE - M.vS) :
    (facesAt M (M.vS + v)).card ≤ maxFaces s := by
  rw [(C164_largest_numbers M s h).2]
  exact Finset.le_sup (f := fun v => (facesAt M v).card) (by rw [mem_Ico]; omega)

theorem cells_le_max {M : Mesh} {s : Saved} (h : SavedOf M s) (v : Nat) (hv : v < M.vE - M.vS) :
    (cellsAt M (M.vS + v)).card ≤ maxCells s := by
  rw [(C164_largest_numbers M s h).1]
  exact Finset.le_sup (f := fun v => (cellsAt M v).card) (by rw [mem_Ico]; omega)

/-- C164.  On every mesh, with every boundary type, the transmissibilities of pressure are written
inside their array, even inside the columns that were asked for. -/
theorem C164_pressure_fits (M : Mesh) (s : Saved) (h : SavedOf M s) (x : Nat → Vtx)
    (hx : Describes M x) (dir : Bool) :
    (∃ a, fill (M.vE - M.vS) x dir (newTrans s) = .ok a) ∧
    ∀ v < M.vE - M.vS, (written dir (x v)).1 ≤ (newTrans s).n2 ∧
      (written dir (x v)).2 ≤ (newTrans s).n3 := by
  have hw : ∀ v < M.vE - M.vS, (written dir (x v)).1 ≤ maxFaces s ∧
      (written dir (x v)).2 ≤ maxFaces s + maxCells s := by
    intro v hv
    have h1 := written_le hx dir v hv
    have h2 := faces_le_max h v hv
    have h3 := cells_le_max h v hv
    omega
  refine ⟨?_, hw⟩
  obtain ⟨a, b, -⟩ := h.ranges
  exact fill_ok _ (maxFaces s) (maxFaces s + maxCells s) x dir _ ⟨by simp [newTrans, a, b], rfl, rfl⟩
    (fun v hv => ⟨(hw v hv).1, by have := (hw v hv).2; omega⟩)

/-- C164.  Those of temperature and concentration are written inside their arrays as well, on every
proper mesh. -/
theorem C164_temperature_fits (M : Mesh) (hM : Proper M) (s : Saved) (h : SavedOf M s)
    (x : Nat → Vtx) (hx : Describes M x) (dir : Bool) :
    ∃ a, fill (M.vE - M.vS) x dir (newTempTrans s) = .ok a := by
  obtain ⟨a, b, -⟩ := h.ranges
  refine fill_ok _ (maxFaces s) (maxFaces s) x dir _ ⟨by simp [newTempTrans, a, b], rfl, rfl⟩ ?_
  intro v hv
  have h1 := written_le hx dir v hv
  have h2 := faces_le_max h v hv
  have h3 := cells_le hM (M.vS + v)
  omega

/-- A single tetrahedron-like cell: cell 0, vertices 1..4, faces 5..8; face `4 + k` lies opposite
vertex `k`. -/
def tet : Mesh where
  vS := 1
  vE := 5
  fS := 5
  fE := 9
  cS := 0
  cE := 1
  at' := fun o v => if o = 0 then true else decide (o ≠ v + 4)
  sides := fun _ => {0}

/-- The saved closures of `tet`: the cell and the three faces of each vertex. -/
def tetSaved : Saved where
  vS := 1
  vE := 5
  fS := 5
  fE := 9
  cS := 0
  cE := 1
  size := fun _ => 4
  closure := fun v i => if i = 0 then 0 else if 4 + i/2 < v + 4 then 4 + i/2 else 5 + i/2

theorem tet_proper : Proper tet where
  two_sides := fun f => by simp [tet]
  cell_has_face := by
    intro v c hc
    have hc0 : c = 0 := by
      have h := (mem_Ico.1 (mem_filter.1 hc).1).2
      have : c < 1 := h
      omega
    subst hc0
    by_cases hv : v = 1
    · exact ⟨6, by simp [facesAt, tet, hv], by simp [tet]⟩
    · refine ⟨5, ?_, by simp [tet]⟩
      refine mem_filter.2 ⟨mem_Ico.2 ⟨le_refl 5, show 5 < 9 by omega⟩, ?_⟩
      simp only [tet]
      rw [if_neg (by omega)]
      exact decide_eq_true (by omega)

theorem tet_saved : SavedOf tet tetSaved where
  ranges := ⟨rfl, rfl, rfl, rfl, rfl, rfl⟩
  once := by
    intro v h1 h2
    have h1' : 1 ≤ v := h1
    have h2' : v < 5 := h2
    intro i hi j hj
    have hi' : i < 4 := hi
    have hj' : j < 4 := hj
    interval_cases v <;> interval_cases i <;> interval_cases j <;> decide
  lists := by
    intro v h1 h2 o ho
    have h1' : 1 ≤ v := h1
    have h2' : v < 5 := h2
    have ho' : 0 ≤ o ∧ o < 1 ∨ 5 ≤ o ∧ o < 9 := ho
    have : o = 0 ∨ o = 5 ∨ o = 6 ∨ o = 7 ∨ o = 8 := by omega
    rcases this with h | h | h | h | h <;> subst h <;> interval_cases v <;> decide

/-- What the tables say of its vertices: one cell, three faces, all on the boundary. -/
def tetVtx : Nat → Vtx := fun _ => ⟨true, 1, 3, 3, 2, 1⟩

theorem tet_describes : Describes tet tetVtx where
  cells := by intro v hv; have hv' : v < 4 := hv; interval_cases v <;> decide
  faces := by intro v hv; have hv' : v < 4 := hv; interval_cases v <;> decide
  bnd := by intro v hv; have hv' : v < 4 := hv; interval_cases v <;> decide
  up_dn := by intro v hv; have hv' : v < 4 := hv; interval_cases v <;> decide
  corner := fun _ _ _ => rfl
  used := fun _ _ => by simp [tetVtx]

/-- The hypotheses are met by this mesh. -/
example : (∃ a, fill 4 tetVtx true (newTrans tetSaved) = .ok a) ∧
    ∃ a, fill 4 tetVtx true (newTempTrans tetSaved) = .ok a :=
  ⟨(C164_pressure_fits tet tetSaved tet_saved tetVtx tet_describes true).1,
    C164_temperature_fits tet tet_proper tetSaved tet_saved tetVtx tet_describes true⟩

/-- C164.  The columns that are asked for do not suffice for temperature: a corner writes four columns
into rows for which three were asked.  The writes are inside the array only because a row gets eight
times the entries that were asked for. -/
theorem C164_too_few_asked_for :
    (newTempTrans tetSaved).n3 = 3 ∧ (written true (tetVtx 0)).2 = 4 := by
  decide

end TDy.Sizes.Props
