import Mathlib.Tactic.NormNum
import Mathlib.Tactic.IntervalCases
import Verif.Spec.Topology

/-!
# C62: cell topology tables; C101: unsupported meshes
-/

namespace TDy.Topology.Props

open Spec

theorem vertices_iff (fs : List (List Nat)) (n : Nat) (h1 : ∀ f ∈ fs, ∀ v ∈ f, v < n)
    (h2 : ∀ v < n, ∃ f ∈ fs, v ∈ f) (v : Nat) : v < n ↔ ∃ f ∈ fs, v ∈ f :=
  ⟨h2 v, fun ⟨f, hf, hv⟩ => h1 f hf v hv⟩

/-- C62.  For each of the four cell types the tables describe one consistent polyhedron. -/
theorem C62_tables_consistent (ct : Int) (h : ct = tet ∨ ct = pyramid ∨ ct = wedge ∨ ct = hex) :
    Consistent ct := by
  rcases h with rfl | rfl | rfl | rfl
  all_goals refine ⟨by decide, by decide, ?_, ?_, ?_, by decide, ⟨by decide, ?_⟩, by decide,
    by decide, by decide⟩
  · intro i hi
    have hi' : i < 4 := by simpa [numFaces, byType] using hi
    interval_cases i <;> exact ⟨_, rfl, by decide, by decide⟩
  · intro i hi
    have hi' : 4 ≤ i := by simpa [numFaces, byType] using hi
    obtain ⟨k, rfl⟩ := Nat.exists_eq_add_of_le' hi'
    rfl
  · intro v
    have e : numVertices tet = ((4 : Nat) : Int) := by decide
    rw [e, Int.ofNat_lt]
    exact vertices_iff _ 4 (by decide) (by decide) v
  · intro a b hab
    revert a b
    have : ∀ e ∈ directedEdges tet, (e.2, e.1) ∈ directedEdges tet := by decide
    exact fun a b hab => this (a, b) hab
  · intro i hi
    have hi' : i < 5 := by simpa [numFaces, byType] using hi
    interval_cases i <;> exact ⟨_, rfl, by decide, by decide⟩
  · intro i hi
    have hi' : 5 ≤ i := by simpa [numFaces, byType] using hi
    obtain ⟨k, rfl⟩ := Nat.exists_eq_add_of_le' hi'
    rfl
  · intro v
    have e : numVertices pyramid = ((5 : Nat) : Int) := by decide
    rw [e, Int.ofNat_lt]
    exact vertices_iff _ 5 (by decide) (by decide) v
  · have : ∀ e ∈ directedEdges pyramid, (e.2, e.1) ∈ directedEdges pyramid := by decide
    exact fun a b hab => this (a, b) hab
  · intro i hi
    have hi' : i < 5 := by simpa [numFaces, byType] using hi
    interval_cases i <;> exact ⟨_, rfl, by decide, by decide⟩
  · intro i hi
    have hi' : 5 ≤ i := by simpa [numFaces, byType] using hi
    obtain ⟨k, rfl⟩ := Nat.exists_eq_add_of_le' hi'
    rfl
  · intro v
    have e : numVertices wedge = ((6 : Nat) : Int) := by decide
    rw [e, Int.ofNat_lt]
    exact vertices_iff _ 6 (by decide) (by decide) v
  · have : ∀ e ∈ directedEdges wedge, (e.2, e.1) ∈ directedEdges wedge := by decide
    exact fun a b hab => this (a, b) hab
  · intro i hi
    have hi' : i < 6 := by simpa [numFaces, byType] using hi
    interval_cases i <;> exact ⟨_, rfl, by decide, by decide⟩
  · intro i hi
    have hi' : 6 ≤ i := by simpa [numFaces, byType] using hi
    obtain ⟨k, rfl⟩ := Nat.exists_eq_add_of_le' hi'
    rfl
  · intro v
    have e : numVertices hex = ((8 : Nat) : Int) := by decide
    rw [e, Int.ofNat_lt]
    exact vertices_iff _ 8 (by decide) (by decide) v
  · have : ∀ e ∈ directedEdges hex, (e.2, e.1) ∈ directedEdges hex := by decide
    exact fun a b hab => this (a, b) hab

/-- C62.  A subcell of a wedge or of a hexahedron is a hexahedron; half of its faces, one for each of
its gradient vectors, lie in faces of the cell. -/
theorem C62_subcells (ct : Int) (h : ct = wedge ∨ ct = hex) :
    subcellVertices (subcellType ct) = numVertices hex ∧
      2*subcellFaces (subcellType ct) = numFaces hex ∧
      numNuVectors (subcellType ct) = subcellFaces (subcellType ct) := by
  rcases h with rfl | rfl <;> decide

/-- C62 (subcells).  On a mesh of wedges or hexahedra the subcells of all cells have distinct
indices inside the arrays allocated for them, although the stride used (the number of vertices) is
not the number of subcells allocated per cell when the cells are wedges. -/
theorem C62_subcell_indices (ct : Int) (h : ct = wedge ∨ ct = hex) (n : Nat) (c s c' s' : Nat)
    (hc : c < n) (hs : (s : Int) < numVertices ct) (hs' : (s' : Int) < numVertices ct) :
    (subcellIndex ct c s : Int) < n * numSubcells (subcellType ct)
      ∧ (subcellIndex ct c s = subcellIndex ct c' s' → c = c' ∧ s = s') := by
  rcases h with rfl | rfl
  · have e : numVertices wedge = 6 := by decide
    have e2 : Int.toNat 6 = 6 := rfl
    have e' : numSubcells (subcellType wedge) = 8 := by decide
    rw [e] at hs hs'
    simp only [subcellIndex, e, e', e2]
    push_cast
    omega
  · have e : numVertices hex = 8 := by decide
    have e2 : Int.toNat 8 = 8 := rfl
    have e' : numSubcells (subcellType hex) = 8 := by decide
    rw [e] at hs hs'
    simp only [subcellIndex, e, e', e2]
    push_cast
    omega

/-- C101 (what holds).  A mesh that is not three-dimensional is refused, and a non-empty uniform mesh
of wedges or hexahedra gets exactly the sizes of its cell type.  Missing: other meshes, see
`C101_unsupported_violated`. -/
theorem C101_supported_partial (dim : Nat) (counts : List Int) :
    (dim ≠ 3 → createSizes dim counts = .err (sizesOf counts))
      ∧ (dim = 3 → counts ≠ [] → (∀ m ∈ counts, m = 8) →
          createSizes dim counts = .ok ⟨hex, 8, 12, 6, 2, 4, 8, 3⟩)
      ∧ (dim = 3 → counts ≠ [] → (∀ m ∈ counts, m = 6) →
          createSizes dim counts = .ok ⟨wedge, 6, 9, 5, 2, 4, 8, 3⟩) := by
  refine ⟨fun h => by simp [createSizes, h], ?_, ?_⟩
  · intro hd hne hall
    cases counts with
    | nil => exact absurd rfl hne
    | cons a rest =>
      have ha : a = 8 := hall a (by simp)
      subst ha
      have hr : ∀ m ∈ rest, m = (8 : Int) := fun m hm => hall m (by simp [hm])
      have hv : cellVertices ((8 : Int) :: rest) = 8 := by
        simp only [cellVertices]
        rw [if_pos hr]
      simp only [createSizes, sizesOf, hv, hd]
      decide
  · intro hd hne hall
    cases counts with
    | nil => exact absurd rfl hne
    | cons a rest =>
      have ha : a = 6 := hall a (by simp)
      subst ha
      have hr : ∀ m ∈ rest, m = (6 : Int) := fun m hm => hall m (by simp [hm])
      have hv : cellVertices ((6 : Int) :: rest) = 6 := by
        simp only [cellVertices]
        rw [if_pos hr]
      simp only [createSizes, sizesOf, hv, hd]
      decide

/-- C101 (violation).  No three-dimensional mesh is refused.  If the cells are not all of one type
("Mesh cells must be of uniform type") or have a number of vertices of no known type, every size is
the error code 83; on a mesh of tetrahedra or pyramids, for which faces and subcells have no table
entry, the sizes of the face and subcell arrays are 83. -/
theorem C101_unsupported_violated (counts : List Int) :
    (∃ s, createSizes 3 counts = .ok s)
      ∧ ((∃ a ∈ counts, ∃ b ∈ counts, a ≠ b) →
          createSizes 3 counts = .ok ⟨83, 83, 83, 83, 83, 83, 83, 83⟩)
      ∧ (counts ≠ [] → (∀ m ∈ counts, m = 4) →
          createSizes 3 counts = .ok ⟨tet, 4, 6, 4, 2, 83, 83, 83⟩)
      ∧ (counts ≠ [] → (∀ m ∈ counts, m = 5) →
          createSizes 3 counts = .ok ⟨pyramid, 5, 8, 5, 2, 83, 83, 83⟩) := by
  refine ⟨⟨_, rfl⟩, ?_, ?_, ?_⟩
  · rintro ⟨a, ha, b, hb, hab⟩
    cases counts with
    | nil => simp at ha
    | cons c rest =>
      have hv : cellVertices (c :: rest) = errSup := by
        simp only [cellVertices]
        rw [if_neg]
        intro hall
        have h1 : ∀ m ∈ c :: rest, m = c := by
          intro m hm
          rcases List.mem_cons.1 hm with h | h
          · exact h
          · exact hall m h
        exact hab ((h1 a ha).trans (h1 b hb).symm)
      simp only [createSizes, sizesOf, hv]
      decide
  · intro hne hall
    cases counts with
    | nil => exact absurd rfl hne
    | cons a rest =>
      have ha : a = 4 := hall a (by simp)
      subst ha
      have hr : ∀ m ∈ rest, m = (4 : Int) := fun m hm => hall m (by simp [hm])
      have hv : cellVertices ((4 : Int) :: rest) = 4 := by
        simp only [cellVertices]
        rw [if_pos hr]
      simp only [createSizes, sizesOf, hv]
      decide
  · intro hne hall
    cases counts with
    | nil => exact absurd rfl hne
    | cons a rest =>
      have ha : a = 5 := hall a (by simp)
      subst ha
      have hr : ∀ m ∈ rest, m = (5 : Int) := fun m hm => hall m (by simp [hm])
      have hv : cellVertices ((5 : Int) :: rest) = 5 := by
        simp only [cellVertices]
        rw [if_pos hr]
      simp only [createSizes, sizesOf, hv]
      decide

/-! Non-vacuity. -/

/-- The first face of a wedge and its edges. -/
example : boundary ((getFaceVertices wedge 0).getD []) = [(0, 1), (1, 4), (4, 3), (3, 0)] := by decide

/-- The second subcell of the fourth wedge. -/
example : subcellIndex wedge 3 1 = 19 := by decide

/-- A hexahedron next to a wedge. -/
example : createSizes 3 [8, 6] = .ok ⟨83, 83, 83, 83, 83, 83, 83, 83⟩ := by decide

example : createSizes 3 [6, 6, 6] = .ok ⟨wedge, 6, 9, 5, 2, 4, 8, 3⟩ := by decide

end TDy.Topology.Props
