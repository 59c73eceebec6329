import Mathlib.Tactic.Common
import Verif.Spec.MeshQuery

/-!
# C222: questions about a mesh are answered for the cells and faces asked about
-/

namespace TDy.MeshQuery

open TDy

theorem inner_eq (x : Int) (b : Nat → Int) (n : Nat) (face : Option Int) :
    (forN n (fun j s =>
      if s.brk then s
      else if x = b j then { face := some x, brk := true }
      else s) { face := face, brk := false : Search }) =
    if ∃ j, j < n ∧ x = b j then { face := some x, brk := true } else { face := face, brk := false } := by
  classical
  induction n with
  | zero => simp [forN]
  | succ n ih =>
    simp only [forN]
    rw [ih]
    by_cases h : ∃ j, j < n ∧ x = b j
    · have h' : ∃ j, j < n + 1 ∧ x = b j := by
        obtain ⟨j, hj, e⟩ := h; exact ⟨j, by omega, e⟩
      rw [if_pos h, if_pos h']; simp
    · rw [if_neg h]
      by_cases hx : x = b n
      · rw [if_pos (⟨n, by omega, hx⟩ : ∃ j, j < n + 1 ∧ x = b j)]
        simp [hx]
      · have h' : ¬ ∃ j, j < n + 1 ∧ x = b j := by
          rintro ⟨j, hj, e⟩
          by_cases hjn : j = n
          · exact hx (hjn ▸ e)
          · exact h ⟨j, by omega, e⟩
        rw [if_neg h']; simp [hx]

/-- What the loops leave: nothing, or the last common entry of the first array. -/
theorem searchLoops_spec (a : Nat → Int) (na : Nat) (b : Nat → Int) (nb : Nat) :
    (searchLoops a na b nb = none ∧ ∀ i j, i < na → j < nb → a i ≠ b j) ∨
    ∃ i, i < na ∧ searchLoops a na b nb = some (a i) ∧ (∃ j, j < nb ∧ a i = b j) ∧
      ∀ i' j, i < i' → i' < na → j < nb → a i' ≠ b j := by
  induction na with
  | zero => left; exact ⟨rfl, fun i j h => absurd h (by omega)⟩
  | succ n ih =>
    have hstep : searchLoops a (n + 1) b nb =
        if ∃ j, j < nb ∧ a n = b j then some (a n) else searchLoops a n b nb := by
      simp only [searchLoops, forN]
      rw [inner_eq]
      split_ifs <;> rfl
    rw [hstep]
    by_cases h : ∃ j, j < nb ∧ a n = b j
    · rw [if_pos h]
      right
      exact ⟨n, by omega, rfl, h, fun i' j h1 h2 => absurd h2 (by omega)⟩
    · rw [if_neg h]
      have hn : ∀ j, j < nb → a n ≠ b j := fun j hj e => h ⟨j, hj, e⟩
      rcases ih with ⟨h1, h2⟩ | ⟨i, hi, h1, h2, h3⟩
      · left
        refine ⟨h1, fun i j hi hj => ?_⟩
        by_cases e : i = n
        · exact e ▸ hn j hj
        · exact h2 i j (by omega) hj
      · right
        refine ⟨i, by omega, h1, h2, fun i' j a1 a2 a3 => ?_⟩
        by_cases e : i' = n
        · exact e ▸ hn j a3
        · exact h3 i' j a1 (by omega) a3

theorem hasFace_iff (m : Mesh) (c : Nat) (f : Int) :
    HasFace m c f ↔ ∃ i, i < (cellFaces m c).2 ∧ (cellFaces m c).1 i = f := by
  unfold HasFace cellFaces
  constructor
  · rintro ⟨p, h1, h2, e⟩
    exact ⟨p - m.faceOffset c, by dsimp only; omega, by
      dsimp only; rw [show m.faceOffset c + (p - m.faceOffset c) = p by omega]; exact e⟩
  · rintro ⟨i, hi, e⟩
    dsimp only at hi e
    exact ⟨m.faceOffset c + i, by omega, by omega, e⟩

/-- **C222.** A face given for two cells is a face of both. -/
theorem C222_shared (m : Mesh) (c1 c2 : Nat) (f : Int) (h : findShared m c1 c2 = some f) :
    HasFace m c1 f ∧ HasFace m c2 f := by
  unfold findShared at h
  rcases searchLoops_spec (cellFaces m c1).1 (cellFaces m c1).2 (cellFaces m c2).1 (cellFaces m c2).2
    with ⟨h1, _⟩ | ⟨i, hi, h1, ⟨j, hj, e⟩, _⟩
  · rw [h1] at h; exact absurd h (by simp)
  · rw [h1] at h
    have hf : (cellFaces m c1).1 i = f := Option.some.inj h
    exact ⟨(hasFace_iff m c1 f).2 ⟨i, hi, hf⟩, (hasFace_iff m c2 f).2 ⟨j, hj, by rw [← e, hf]⟩⟩

/-- **C222.** The error is raised exactly if the cells have no common face. -/
theorem C222_shared_error (m : Mesh) (c1 c2 : Nat) :
    findShared m c1 c2 = none ↔ ¬ ∃ f, HasFace m c1 f ∧ HasFace m c2 f := by
  constructor
  · rintro h ⟨f, h1, h2⟩
    obtain ⟨i, hi, e1⟩ := (hasFace_iff m c1 f).1 h1
    obtain ⟨j, hj, e2⟩ := (hasFace_iff m c2 f).1 h2
    unfold findShared at h
    rcases searchLoops_spec (cellFaces m c1).1 (cellFaces m c1).2 (cellFaces m c2).1 (cellFaces m c2).2
      with ⟨_, h3⟩ | ⟨k, _, h3, _, _⟩
    · exact h3 i j hi hj (e1.trans e2.symm)
    · rw [h3] at h; exact absurd h (by simp)
  · intro h
    cases hf : findShared m c1 c2 with
    | none => rfl
    | some f => exact absurd ⟨f, C222_shared m c1 c2 f hf⟩ h

/-- **C222.** Cells with one common face get this face, in whatever order they are given. -/
theorem C222_shared_unique (m : Mesh) (c1 c2 : Nat) (f : Int) (h1 : HasFace m c1 f) (h2 : HasFace m c2 f)
    (hu : ∀ g, HasFace m c1 g → HasFace m c2 g → g = f) :
    findShared m c1 c2 = some f ∧ findShared m c2 c1 = some f := by
  constructor
  · cases hf : findShared m c1 c2 with
    | none => exact absurd ⟨f, h1, h2⟩ ((C222_shared_error m c1 c2).1 hf)
    | some g =>
      obtain ⟨a, b⟩ := C222_shared m c1 c2 g hf
      rw [hu g a b]
  · cases hf : findShared m c2 c1 with
    | none => exact absurd ⟨f, h2, h1⟩ ((C222_shared_error m c2 c1).1 hf)
    | some g =>
      obtain ⟨a, b⟩ := C222_shared m c2 c1 g hf
      rw [hu g b a]

/-- Two cells with faces 4, 5 and 5, 6; the second is a ghost. -/
def twoCells : Mesh where
  numCells := 2
  numCellsLocal := 1
  faceOffset := fun c => 2 * c
  faceIds := fun p => if p = 0 then 4 else if p = 1 then 5 else if p = 2 then 5 else 6
  naturalId := fun c => if c = 0 then 10 else 20
  isLocal := fun c => c == 0
  edgeOffset := fun f => 2 * f
  numEdges := fun _ => 2
  edgeIds := fun p => p / 2 + p % 2

example : HasFace twoCells 0 5 ∧ HasFace twoCells 1 5 ∧
    ∀ g, HasFace twoCells 0 g → HasFace twoCells 1 g → g = 5 := by
  refine ⟨⟨1, by decide, by decide, by decide⟩, ⟨2, by decide, by decide, by decide⟩, ?_⟩
  rintro g ⟨p, h1, h2, e1⟩ ⟨q, h3, h4, e2⟩
  simp only [twoCells] at h1 h2 h3 h4 e1 e2
  have hp : p = 0 ∨ p = 1 := by omega
  have hq : q = 2 ∨ q = 3 := by omega
  rcases hp with rfl | rfl <;> rcases hq with rfl | rfl <;> simp at e1 e2 <;> omega

example : findShared twoCells 0 1 = some 5 := by decide

/-! ## Faces with a common edge -/

theorem innerEdges_eq (x : Int) (b : Nat → Int) (n : Nat) (are : Bool) :
    (forN n (fun j (s : Bool × Bool) =>
      if s.2 then s else if x = b j then (true, true) else s) (are, false)) =
    if ∃ j, j < n ∧ x = b j then (true, true) else (are, false) := by
  classical
  induction n with
  | zero => simp [forN]
  | succ n ih =>
    simp only [forN]
    rw [ih]
    by_cases h : ∃ j, j < n ∧ x = b j
    · have h' : ∃ j, j < n + 1 ∧ x = b j := by
        obtain ⟨j, hj, e⟩ := h; exact ⟨j, by omega, e⟩
      rw [if_pos h, if_pos h']; simp
    · rw [if_neg h]
      by_cases hx : x = b n
      · rw [if_pos (⟨n, by omega, hx⟩ : ∃ j, j < n + 1 ∧ x = b j)]
        simp [hx]
      · have h' : ¬ ∃ j, j < n + 1 ∧ x = b j := by
          rintro ⟨j, hj, e⟩
          by_cases hjn : j = n
          · exact hx (hjn ▸ e)
          · exact h ⟨j, by omega, e⟩
        rw [if_neg h']; simp [hx]

theorem outerEdges (a b : Nat → Int) (na nb : Nat) :
    forN na (fun i are =>
      (forN nb (fun j (s : Bool × Bool) =>
        if s.2 then s else if a i = b j then (true, true) else s) (are, false)).1) false = true ↔
    ∃ i j, i < na ∧ j < nb ∧ a i = b j := by
  induction na with
  | zero => simp [forN]
  | succ n ih =>
    simp only [forN]
    rw [innerEdges_eq]
    by_cases h : ∃ j, j < nb ∧ a n = b j
    · rw [if_pos h]
      obtain ⟨j, hj, e⟩ := h
      exact ⟨fun _ => ⟨n, j, by omega, hj, e⟩, fun _ => rfl⟩
    · rw [if_neg h]
      dsimp only
      rw [ih]
      constructor
      · rintro ⟨i, j, hi, hj, e⟩; exact ⟨i, j, by omega, hj, e⟩
      · rintro ⟨i, j, hi, hj, e⟩
        by_cases hin : i = n
        · exact absurd ⟨j, hj, hin ▸ e⟩ h
        · exact ⟨i, j, by omega, hj, e⟩

/-- **C222.** Faces are called neighbours exactly if they have a common edge. -/
theorem C222_neighbors (m : Mesh) (f1 f2 : Nat) :
    areFacesNeighbors m f1 f2 = true ↔ ∃ e, HasEdge m f1 e ∧ HasEdge m f2 e := by
  unfold areFacesNeighbors
  rw [outerEdges (fun i => m.edgeIds (m.edgeOffset f1 + i)) (fun j => m.edgeIds (m.edgeOffset f2 + j))]
  unfold HasEdge
  constructor
  · rintro ⟨i, j, hi, hj, e⟩; exact ⟨_, ⟨i, hi, rfl⟩, ⟨j, hj, e.symm⟩⟩
  · rintro ⟨e, ⟨i, hi, e1⟩, ⟨j, hj, e2⟩⟩; exact ⟨i, j, hi, hj, e1.trans e2.symm⟩

example : areFacesNeighbors twoCells 0 1 = true ∧ areFacesNeighbors twoCells 0 2 = false := by decide

/-! ## Natural numbers and owners of the cells -/

theorem fillLoop (n : Nat) (v : Nat → Int) (out : Nat → Int) :
    forN n (fun i (s : Nat × (Nat → Int)) => (s.1 + 1, wr s.2 s.1 (v i))) (0, out) =
      (n, fun q => if q < n then v q else out q) := by
  induction n with
  | zero => simp [forN]
  | succ n ih =>
    simp only [forN]
    rw [ih]
    refine Prod.ext rfl ?_
    funext q
    simp only [wr]
    by_cases h : q = n
    · subst h; simp
    · rw [if_neg h]
      by_cases h1 : q < n
      · rw [if_pos h1, if_pos (by omega)]
      · rw [if_neg h1, if_neg (by omega)]

theorem naturalIds_eq (m : Mesh) (out : Nat → Int) :
    getLocalCellNaturalIDs m out = (m.numCells, fun q => if q < m.numCells then m.naturalId q else out q) :=
  fillLoop _ _ _

theorem answer_ids (m : Mesh) (out : Nat → Int) :
    answer (getLocalCellNaturalIDs m out) = (List.range m.numCells).map m.naturalId := by
  rw [naturalIds_eq]
  apply List.map_congr_left
  intro q hq
  simp only
  rw [if_pos (List.mem_range.1 hq)]

/-- **C222.** If the process owns all its cells, the natural numbers are those of its cells, in order; nothing
else is written. -/
theorem C222_natural_partial (m : Mesh) (out : Nat → Int) (h : ∀ c, c < m.numCells → m.isLocal c = true) :
    answer (getLocalCellNaturalIDs m out) = ownedNaturalIds m ∧
    ∀ q, m.numCells ≤ q → (getLocalCellNaturalIDs m out).2 q = out q := by
  constructor
  · rw [answer_ids, ownedNaturalIds]
    congr 1
    symm
    rw [List.filter_eq_self]
    intro c hc
    exact h c (List.mem_range.1 hc)
  · intro q hq
    rw [naturalIds_eq]
    simp only
    rw [if_neg (by omega)]

example : ∀ c, c < ({ twoCells with numCells := 1 } : Mesh).numCells →
    ({ twoCells with numCells := 1 } : Mesh).isLocal c = true := by
  intro c hc
  have : c = 0 := by simp only [Nat.lt_one_iff] at hc; exact hc
  subst this; rfl

/-- **C222, violated.** With ghost cells the "local" natural numbers are more than the local cells, so that an
array for the number of local cells is overrun: whatever the array held, the entry behind it is written. -/
theorem C222_natural_violated :
    ∃ m : Mesh, (ownedNaturalIds m).length = getNumLocalCells m ∧
      (∀ out, getNumLocalCells m < (getLocalCellNaturalIDs m out).1) ∧
      ∃ out : Nat → Int, (getLocalCellNaturalIDs m out).2 (getNumLocalCells m) ≠
        out (getNumLocalCells m) := by
  refine ⟨twoCells, by decide, fun out => ?_, fun _ => 0, by decide⟩
  rw [naturalIds_eq]
  exact Nat.lt_succ_self 1

theorem isLocal_eq (m : Mesh) (out : Nat → Int) :
    getCellIsLocal m out =
      (m.numCells, fun q => if q < m.numCells then (if m.isLocal q then 1 else 0) else out q) := by
  rw [← fillLoop m.numCells (fun c => if m.isLocal c then 1 else 0) out]
  unfold getCellIsLocal
  congr 1
  funext i s
  split_ifs <;> rfl

/-- **C222.** The flags of ownership are given for every cell, ghosts included, and nothing else is
written. -/
theorem C222_is_local (m : Mesh) (out : Nat → Int) :
    (getCellIsLocal m out).1 = m.numCells ∧
    (∀ c, c < m.numCells → (getCellIsLocal m out).2 c = if m.isLocal c then 1 else 0) ∧
    ∀ q, m.numCells ≤ q → (getCellIsLocal m out).2 q = out q := by
  rw [isLocal_eq]
  refine ⟨rfl, fun c hc => ?_, fun q hq => ?_⟩
  · simp only; rw [if_pos hc]
  · simp only; rw [if_neg (by omega)]

end TDy.MeshQuery
