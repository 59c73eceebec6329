import Verif.Spec.BdmUnique

/-!
# Specification: the BDM method conserves water

The flux through a face of a cell, out of the velocities at the quadrature points of the face.
-/

namespace TDy.Fe.Spec

open TDy.Fe Finset Matrix

noncomputable section

open Classical in
/-- The water that leaves a cell through its face `f`: the integral of the normal velocity, with the
normal out of the cell. -/
def faceFlux (b : Bdm) (c : BCell) (f : BFace) (dir side : Nat) (x : Nat → ℝ) : ℝ :=
  ∑ q ∈ range f.nq,
    (velocity b c (hdivBasis b.dim (singlePoint dir side (f.pt q).y) (f.pt q).DF (f.pt q).J) x
      ⬝ᵥ fun k => (if f.side < 0 then -1 else 1)*f.normal k)*((f.pt q).w*(f.pt q).fJ)

/-- The faces of a quadrilateral or hexahedron: each lies across a direction of the reference cell, on one
of its two sides, and there is one for each. -/
structure CellFaces (b : Bdm) (c : BCell) (dir side : Nat → Nat) : Prop where
  count : c.nFaces = 2*b.dim
  face_at : ∀ i < c.nFaces, FaceAt b c (c.face i) (dir i) (side i)
  side_lt : ∀ i < c.nFaces, side i < 2
  geometry : ∀ i < c.nFaces, FaceGeometry b (c.face i) (dir i) (side i)
  distinct : ∀ i < c.nFaces, ∀ j < c.nFaces, dir i = dir j → side i = side j → i = j

/-- The unknowns of a cell are different. -/
def DistinctRows (b : Bdm) (c : BCell) : Prop :=
  ∀ r < b.dim*b.nv, ∀ r' < b.dim*b.nv, c.ltog r = c.ltog r' → r = r'

/-- The face of cell `c` across `dir` on side `side` has the unknowns of the face of `c'` across `dir'` on
side `side'`. -/
def SameFace (b : Bdm) (c c' : BCell) (dir side dir' side' : Nat) : Prop :=
  (∀ r < b.dim*b.nv, OnSide b r dir side → ∃ r' < b.dim*b.nv, OnSide b r' dir' side' ∧ c'.ltog r' = c.ltog r)
  ∧ ∀ r' < b.dim*b.nv, OnSide b r' dir' side' → ∃ r < b.dim*b.nv, OnSide b r dir side ∧ c.ltog r = c'.ltog r'

end

end TDy.Fe.Spec
