import Verif.Spec.Boundary
import Mathlib.Data.List.Nodup
import Mathlib.Data.List.Range
import Mathlib.Tactic.Tauto

/-!
# C156: the faces of the boundary
-/

namespace TDy.Boundary.Props

open TDy TDy.Boundary TDy.Boundary.Spec

theorem mark_iff (m : Plex) (p : Nat) :
    markFaces m (fun _ => none) p = some 1 ↔ BoundaryFace m p := by
  unfold markFaces BoundaryFace
  have key : ∀ n, forN n (fun i (l : Label) =>
      if m.support (m.fStart + i) = 1 then wr l (m.fStart + i) (some 1) else l) (fun _ => none) p = some 1
      ↔ m.fStart ≤ p ∧ p < m.fStart + n ∧ m.support p = 1 := by
    intro n
    induction n with
    | zero => simp [forN]; omega
    | succ n ih =>
      simp only [forN]
      by_cases hs : m.support (m.fStart + n) = 1
      · rw [if_pos hs]
        by_cases hp : p = m.fStart + n
        · subst hp; simp [hs]
        · rw [wr_other _ _ hp, ih]
          constructor
          · rintro ⟨a, b, c⟩; exact ⟨a, by omega, c⟩
          · rintro ⟨a, b, c⟩; exact ⟨a, by omega, c⟩
      · rw [if_neg hs, ih]
        constructor
        · rintro ⟨a, b, c⟩; exact ⟨a, by omega, c⟩
        · rintro ⟨a, b, c⟩
          refine ⟨a, ?_, c⟩
          by_contra h
          have : p = m.fStart + n := by omega
          subst this; exact hs c
  rw [key]
  constructor
  · rintro ⟨a, b, c⟩; exact ⟨a, by omega, c⟩
  · rintro ⟨a, b, c⟩; exact ⟨a, by omega, c⟩

theorem foldl_wr (qs : List Nat) (l : Label) (p : Nat) :
    qs.foldl (fun l q => wr l q (some 1)) l p = some 1 ↔ p ∈ qs ∨ l p = some 1 := by
  induction qs generalizing l with
  | nil => simp
  | cons q qs ih =>
    simp only [List.foldl_cons, ih, List.mem_cons]
    by_cases h : p = q
    · subst h; simp
    · rw [wr_other _ _ h]; tauto

theorem complete_iff (m : Plex) (l : Label) (p : Nat) :
    complete m l p = some 1 ↔ (∃ s, s ∈ stratum m l ∧ p ∈ m.closure s) ∨ l p = some 1 := by
  unfold complete
  generalize stratum m l = ss
  induction ss generalizing l with
  | nil => simp
  | cons s ss ih =>
    simp only [List.foldl_cons, ih, foldl_wr, List.mem_cons]
    constructor
    · rintro (⟨s', h1, h2⟩ | h | h)
      · exact .inl ⟨s', .inr h1, h2⟩
      · exact .inl ⟨s, .inl rfl, h⟩
      · exact .inr h
    · rintro (⟨s', rfl | h1, h2⟩ | h)
      · exact .inr (.inl h2)
      · exact .inl ⟨s', h1, h2⟩
      · exact .inr (.inr h)

theorem label_iff (m : Plex) (hm : WellFormed m) (p : Nat) :
    complete m (markFaces m (fun _ => none)) p = some 1 ↔ ∃ f, BoundaryFace m f ∧ p ∈ m.closure f := by
  rw [complete_iff]
  simp only [stratum, List.mem_filter, List.mem_range, decide_eq_true_eq, mark_iff]
  constructor
  · rintro (⟨s, ⟨_, h2⟩, h3⟩ | h)
    · exact ⟨s, h2, h3⟩
    · exact ⟨p, h, hm.self p (Nat.lt_of_lt_of_le h.2.1 hm.range)⟩
  · rintro ⟨f, h1, h2⟩
    exact .inl ⟨f, ⟨Nat.lt_of_lt_of_le h1.2.1 hm.range, h1⟩, h2⟩

/-- For meshes of PETSc the call lists, once each and in ascending order, the points in the closure of
the faces of the boundary.  So every face of the boundary is listed, and every listed face is one.
Missing from the full property: edges and vertices of these faces are listed as well. -/
theorem C156_boundary_faces_are_listed_partial (m : Plex) (hm : WellFormed m) :
    ∃ ps, getBoundaryFaces m (boundaryLabel true m) = .ok (ps.length, ps) ∧ ps.Nodup ∧
      ps.Pairwise (· < ·) ∧
      (∀ p, p ∈ ps ↔ ∃ f, BoundaryFace m f ∧ p ∈ m.closure f) ∧
      (∀ f, m.fStart ≤ f → f < m.fEnd → (f ∈ ps ↔ BoundaryFace m f)) := by
  have mem : ∀ p, p ∈ stratum m (complete m (markFaces m (fun _ => none))) ↔
      ∃ f, BoundaryFace m f ∧ p ∈ m.closure f := by
    intro p
    rw [← label_iff m hm p]
    simp only [stratum, List.mem_filter, List.mem_range, decide_eq_true_eq]
    constructor
    · exact fun h => h.2
    · intro h
      refine ⟨?_, h⟩
      obtain ⟨f, h1, h2⟩ := (label_iff m hm p).1 h
      exact hm.inside f p (Nat.lt_of_lt_of_le h1.2.1 hm.range) h2
  refine ⟨_, rfl, (List.nodup_range).filter _, (List.pairwise_lt_range).filter _, mem, ?_⟩
  intro f h1 h2
  rw [mem f]
  constructor
  · rintro ⟨g, hg, hc⟩
    have := hm.faces g f hg.1 hg.2.1 hc h1 h2
    subst this; exact hg
  · intro hf
    exact ⟨f, hf, hm.self f (Nat.lt_of_lt_of_le h2 hm.range)⟩

/-- The finite-element method imposes pressures on exactly the faces of the boundary. -/
theorem C156_faces_with_given_pressure (m : Plex) (hm : WellFormed m) (f : Nat) (h1 : m.fStart ≤ f)
    (h2 : f < m.fEnd) : isBoundary (boundaryLabel true m) f = true ↔ BoundaryFace m f := by
  simp only [isBoundary, boundaryLabel, if_true, decide_eq_true_eq]
  rw [label_iff m hm]
  constructor
  · rintro ⟨g, hg, hc⟩
    have := hm.faces g f hg.1 hg.2.1 hc h1 h2
    subst this; exact hg
  · intro hf
    exact ⟨f, hf, hm.self f (Nat.lt_of_lt_of_le h2 hm.range)⟩

/-- Whenever a face of the boundary has a vertex, the call gives more than the faces of the boundary. -/
theorem C156_boundary_faces_never_alone (m : Plex) (hm : WellFormed m) (f q : Nat)
    (hf : BoundaryFace m f) (hq : q ∈ m.closure f) (hqf : ¬ (m.fStart ≤ q ∧ q < m.fEnd)) :
    ¬ GivesBoundaryFaces m (getBoundaryFaces m (boundaryLabel true m)) := by
  rintro ⟨fs, e, _, h⟩
  obtain ⟨ps, e', _, _, hm', _⟩ := C156_boundary_faces_are_listed_partial m hm
  rw [e'] at e
  injection e with e
  rw [Prod.mk.injEq] at e
  have : q ∈ fs := by rw [← e.2, hm']; exact ⟨f, hf, hq⟩
  have := (h q).1 this
  exact hqf ⟨this.1, this.2.1⟩

namespace WitnessCube

/-- The mesh of one cube: cell 0, vertices 1-8, faces 9-14, edges 15-26. -/
def cone : Nat → List Nat
  | 0 => [9, 10, 11, 12, 13, 14]
  | 9 => [15, 16, 17, 18]
  | 10 => [19, 20, 21, 22]
  | 11 => [15, 23, 19, 24]
  | 12 => [17, 25, 21, 26]
  | 13 => [16, 25, 20, 23]
  | 14 => [18, 26, 22, 24]
  | 15 => [1, 2] | 16 => [2, 3] | 17 => [3, 4] | 18 => [4, 1]
  | 19 => [5, 6] | 20 => [6, 7] | 21 => [7, 8] | 22 => [8, 5]
  | 23 => [2, 6] | 24 => [1, 5] | 25 => [3, 7] | 26 => [4, 8]
  | _ => []

def cube : Plex where
  pEnd := 27
  fStart := 9
  fEnd := 15
  support := fun _ => 1
  closure := fun p => [p] ++ cone p ++ (cone p).flatMap cone ++ ((cone p).flatMap cone).flatMap cone

theorem wellFormed : WellFormed cube where
  range := by decide
  self := by intro p _; simp [cube]
  inside := by
    have : ∀ p, p < 27 → ∀ q, q ∈ cube.closure p → q < 27 := by decide +kernel
    exact fun p q hp hq => this p hp q hq
  faces := by
    have : ∀ f, f < 15 → 9 ≤ f → ∀ q, q ∈ cube.closure f → 9 ≤ q → q < 15 → q = f := by decide +kernel
    exact fun f q h1 h2 hq h3 h4 => this f h2 h1 q hq h3 h4

/-- A cube has six faces on its boundary; the call gives 26 points. -/
example : (match getBoundaryFaces cube (boundaryLabel true cube) with
    | .ok (n, _) => n | _ => 0) = 26 := by decide +kernel

example : BoundaryFace cube 9 ∧ 1 ∈ cube.closure 9 ∧ ¬ (cube.fStart ≤ 1 ∧ 1 < cube.fEnd) := by
  refine ⟨⟨by decide, by decide, rfl⟩, by decide +kernel, by decide⟩

end WitnessCube

/-- The call does not give the faces of the boundary: neither for a cube, nor for any mesh read from a
PFLOTRAN file, for which it is undefined. -/
theorem C156_violated :
    (¬ ∀ m, WellFormed m → GivesBoundaryFaces m (getBoundaryFaces m (boundaryLabel true m))) ∧
    ∀ m, getBoundaryFaces m (boundaryLabel false m) = .ub := by
  refine ⟨fun h => ?_, fun m => rfl⟩
  exact C156_boundary_faces_never_alone _ WitnessCube.wellFormed 9 1 ⟨by decide, by decide, rfl⟩
    (by decide +kernel) (by decide) (h _ WitnessCube.wellFormed)

end TDy.Boundary.Props
