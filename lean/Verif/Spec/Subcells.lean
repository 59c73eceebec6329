import Verif.Model.Subcells

/-!
# Specification for the tables of the subcells (C170, C171)
-/

namespace TDy.Subcells.Spec

open TDy TDy.Subcells

/-- The faces of cell `c` that meet at vertex `v`. -/
def facesAt (m : Mesh) (c v : Nat) : List Nat :=
  ((List.range (m.nFaces v)).map (m.vFace v)).filter fun f => decide (m.up f = c ∨ m.dn f = c)

/-- At each of its vertices a cell has three faces, different from each other, and these contain the
vertex; the vertices of a face are different from each other, and there are at least two. -/
structure Regular (m : Mesh) : Prop where
  three : ∀ c < m.numCells, ∀ s < m.nSub, (facesAt m c (m.cellVertex c s)).length = 3
  nodup : ∀ c < m.numCells, ∀ s < m.nSub, (facesAt m c (m.cellVertex c s)).Nodup
  has : ∀ c < m.numCells, ∀ s < m.nSub, ∀ f ∈ facesAt m c (m.cellVertex c s),
    ∃ k < m.nVerts f, m.fVert f k = m.cellVertex c s
  two : ∀ c < m.numCells, ∀ s < m.nSub, ∀ f ∈ facesAt m c (m.cellVertex c s), 2 ≤ m.nVerts f
  distinct : ∀ c < m.numCells, ∀ s < m.nSub, ∀ f ∈ facesAt m c (m.cellVertex c s),
    ∀ j < m.nVerts f, ∀ k < m.nVerts f, m.fVert f j = m.fVert f k → j = k

noncomputable section

/-- The middle of two points. -/
def mid (p q : Geo.P3) : Geo.P3 := ⟨(p.x + q.x)/2, (p.y + q.y)/2, (p.z + q.z)/2⟩

/-- The mean of the corners of a quadrilateral. -/
def meanOf (a b c d : Geo.P3) : Geo.P3 :=
  ⟨(a.x + b.x + c.x + d.x)/4, (a.y + b.y + c.y + d.y)/4, (a.z + b.z + c.z + d.z)/4⟩

/-- `X` is the mean of the corners of the part of face `f` at vertex `v`: the vertex, the middles of the
two edges of the face at the vertex, and the centroid of the face. -/
def IsSubfaceMean (m : Mesh) (v f : Nat) (X : Geo.P3) : Prop :=
  ∃ k < m.nVerts f, m.fVert f k = v ∧
    X = meanOf (m.coord v) (mid (m.coord v) (m.coord (m.fVert f ((k + 1) % m.nVerts f))))
      (m.fCen f) (mid (m.coord v) (m.coord (m.fVert f ((k + m.nVerts f - 1) % m.nVerts f))))

end

end TDy.Subcells.Spec
