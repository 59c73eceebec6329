import Verif.Model.MpfaoVelocity
import Verif.Spec.MpfaoTrans

/-!
# What recovered velocities should be

The rate through a subface, in the direction of the normal, is minus the product of its row of the
transmissibilities with the potentials of the cells and the pressures of the boundary faces: row
times pressures is `area · normal · K ∇p` (`C92`), and water flows down the gradient.
-/

namespace TDy.Mpfao.Spec

open TDy.Mpfao

noncomputable section

/-- A corner of the domain: boundary faces, and a single cell. -/
abbrev CornerV (w : VVert) : Prop := w.nBnd ≠ 0 ∧ w.nCells ≤ 1

/-- The vertex contributes through the rows of its transmissibilities: inside the domain, or on its
boundary, local and with at least two cells. -/
abbrev RowsV (w : VVert) : Prop := w.nBnd = 0 ∨ (2 ≤ w.nCells ∧ w.isLocal = true)

/-- The boundary faces of the subcells around a vertex, cell after cell, each with the number of its
cell at the vertex. -/
def bndFaces (m : VelIn) (w : VVert) : List (Nat × Nat) :=
  (List.range w.nCells).flatMap fun i =>
    (((List.range 3).map (w.subFace i)).filter fun f => m.internal f = false).map fun f => (i, f)

/-- The pressure to use at the `k`-th boundary face: the given one, or that of the cell. -/
def pressureAt (m : VelIn) (w : VVert) (k : Nat) : ℝ :=
  match m.bndP with
  | some p => p ((bndFaces m w)[k]?.getD (0, 0)).2
  | none => potential m (w.cell ((bndFaces m w)[k]?.getD (0, 0)).1)

/-- The rate through row `i` of a vertex, in the direction of the normal of its face. -/
def rate (m : VelIn) (w : VVert) (i : Nat) : ℝ :=
  -(∑ k ∈ Finset.range w.nCells, w.T i k*potential m (w.cell k) +
    ∑ k ∈ Finset.range w.nBnd, w.T i (w.nCells + k)*pressureAt m w k)

/-- The rate through face `i` of the subcell of a corner, in the direction of the normal: each
entry of `G` weighs the drop of pressure from the cell to a face as in `oneSided`, which is
`area · normal · K ∇p` (`oneSided_linear`). -/
def cornerRate (m : VelIn) (w : VVert) (i : Nat) : ℝ :=
  -∑ j ∈ Finset.range 3, w.G i j*(m.u (w.cell 0) - cornerPressure m w j)

/-- What the vertices put on face `f`, row by row. -/
def overRows (m : VelIn) (f : Nat) (g : VVert → Nat → ℝ) : ℝ :=
  ∑ v ∈ Finset.range m.numVertices, ∑ i ∈ Finset.range (m.vert v).nFaces,
    if RowsV (m.vert v) ∧ (m.vert v).face i = f then g (m.vert v) i else 0

/-- What the corners put on face `f`. -/
def overCorners (m : VelIn) (f : Nat) (g : VVert → Nat → ℝ) : ℝ :=
  ∑ v ∈ Finset.range m.numVertices, ∑ i ∈ Finset.range 3,
    if CornerV (m.vert v) ∧ (m.vert v).subFace 0 i = f then g (m.vert v) i else 0

/-- The mesh: internal faces come first, and the boundary faces of the subcells around a vertex are
as many as its boundary faces. -/
structure VelOk (m : VelIn) : Prop where
  bnd_le : ∀ v < m.numVertices, (m.vert v).nBnd ≤ (m.vert v).nFaces
  bnd_count : ∀ v < m.numVertices, RowsV (m.vert v) →
    (bndFaces m (m.vert v)).length = (m.vert v).nBnd

/-- No corner of the domain is a corner of face `f`. -/
def NoCorner (m : VelIn) (f : Nat) : Prop :=
  ∀ v < m.numVertices, CornerV (m.vert v) → ∀ i < 3, (m.vert v).subFace 0 i ≠ f

end

end TDy.Mpfao.Spec
