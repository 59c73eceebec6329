import Verif.Model.FeMaps

/-!
# Cells that are images of the reference cell

The local numbering the finite element methods rely on, said without the code that builds it.
-/

namespace TDy.Fe.Spec

open TDy.Fe

/-- The corner that differs from `q` in every direction but `d`: with `q` it spans the face of `q`
across direction `d`. -/
def opposite (dim q d : Nat) : Nat := q ^^^ (2^dim - 1 - 2^d)

/-- Cell `c` is the image of the reference cell: corner `q` lands on vertex `vert q`, and the face of
corner `q` across direction `d` is `face q d`. -/
structure Shaped (m : Plex) (c : Nat) (vert : Nat → Nat) (face : Nat → Nat → Nat) : Prop where
  /-- quadrilaterals or hexahedra -/
  dim : m.dim = 2 ∨ m.dim = 3
  corners : m.ncv = 2^m.dim
  /-- corner `q` is mapped onto the coordinates of a vertex of the cell -/
  mem : ∀ q < m.ncv, vert q ∈ m.closure c ∧ m.isVertex (vert q) = true
  image : ∀ q < m.ncv, m.image c q = m.X (vert q)
  /-- the cell has no other vertices, and different vertices are apart -/
  only : ∀ p ∈ m.closure c, m.isVertex p = true → ∃ q < m.ncv, p = vert q
  apart : ∀ q < m.ncv, ∀ q' < m.ncv, q ≠ q' → 1/10^12 < l1norm (m.X (vert q)) (m.X (vert q')) m.dim
  /-- the face across direction `d` -/
  isFace : ∀ q < m.ncv, ∀ d < m.dim, face q d ∈ m.closure c ∧ m.isFace (face q d) = true
  spans : ∀ q < m.ncv, ∀ d < m.dim, vert q ∈ m.closure (face q d)
    ∧ vert (opposite m.dim q d) ∈ m.closure (face q d)
  /-- two corners on a diagonal of a face have no other face in common -/
  unique : ∀ q < m.ncv, ∀ d < m.dim, ∀ f ∈ m.closure c, m.isFace f = true →
    vert q ∈ m.closure f → vert (opposite m.dim q d) ∈ m.closure f → f = face q d

/-- The normal stored for face `f` points into cell `c`. -/
def Inward (m : Plex) (c f : Nat) : Prop :=
  ∑ i ∈ Finset.range m.dim, m.N f i*(m.X f i - m.X c i) < 0

end TDy.Fe.Spec
