import Verif.Model.Boundary

/-! # The faces of the boundary: what is meant -/

namespace TDy.Boundary.Spec

open TDy TDy.Boundary

/-- A face on the boundary: a face with one cell. -/
def BoundaryFace (m : Plex) (f : Nat) : Prop := m.fStart ≤ f ∧ f < m.fEnd ∧ m.support f = 1

/-- Points are numbered below `pEnd`; the closure of a point contains it, and that of a face contains no
other face. -/
structure WellFormed (m : Plex) : Prop where
  range : m.fEnd ≤ m.pEnd
  self : ∀ p, p < m.pEnd → p ∈ m.closure p
  inside : ∀ p q, p < m.pEnd → q ∈ m.closure p → q < m.pEnd
  faces : ∀ f q, m.fStart ≤ f → f < m.fEnd → q ∈ m.closure f → m.fStart ≤ q → q < m.fEnd → q = f

/-- The call gives the faces of the boundary, each once. -/
def GivesBoundaryFaces (m : Plex) (r : Res (Nat × List Nat)) : Prop :=
  ∃ fs, r = .ok (fs.length, fs) ∧ fs.Nodup ∧ ∀ f, f ∈ fs ↔ BoundaryFace m f

end TDy.Boundary.Spec
