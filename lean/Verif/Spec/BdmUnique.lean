import Mathlib.Analysis.Matrix.PosDef
import Mathlib.Logic.Relation
import Verif.Spec.Bdm

/-!
# Specification: when the mixed problem of the BDM method has one solution

What is asked of the mesh, of the quadrature and of the numbers of the unknowns.  Nothing is asked of the
boundary conditions: where no pressure is given the boundary integral is left out, which is the condition
that the pressure is zero.
-/

namespace TDy.Fe.Spec

open TDy.Fe Finset Matrix

noncomputable section

/-- The quadrature points of the cell include the grid of the given one-dimensional nodes. -/
def HasGrid (b : Bdm) (c : BCell) (nodes : Finset ℝ) : Prop :=
  ∀ t : Nat → ℝ, (∀ d < b.dim, t d ∈ nodes) → ∃ q < c.nq, ∀ d < b.dim, (c.pt q).x d = t d

/-- The two rules of the method: the tensor product of three nodes (`FULL`), or the corners of the
cell (`LUMPED`). -/
def HasRule (b : Bdm) (c : BCell) : Prop :=
  (∃ nodes : Finset ℝ, nodes.card = 3 ∧ HasGrid b c nodes) ∨ HasGrid b c {-1, 1}

/-- The weights are positive and the map of the reference cell is regular, with positive volume, at every
quadrature point. -/
def RegularMap (b : Bdm) (c : BCell) : Prop :=
  ∀ q < c.nq, 0 < (c.pt q).w ∧ 0 < (c.pt q).J ∧ (toMatrix b.dim (c.pt q).DF).det ≠ 0

/-- The row of a velocity unknown, and its orientation. -/
def rowOf (b : Bdm) (u : Nat × Nat) : Nat := (b.cell u.1).ltog u.2
def signOf (b : Bdm) (u : Nat × Nat) : Int := (b.cell u.1).orient u.2

/-- The numbers of the unknowns: each of the `N` rows belongs to an unknown; the row of a pressure
belongs to nothing else; a velocity unknown has a direction, and its row belongs to at most one more,
which has the opposite direction. -/
structure Numbered (b : Bdm) (N : Nat) : Prop where
  below : RowsBelow b N
  all : ∀ a < N, ∃ i < b.nCells, (b.cell i).owned = true ∧ ∃ r < b.dim*b.nv + 1, (b.cell i).ltog r = a
  pressure : ∀ i < b.nCells, (b.cell i).owned = true → ∀ j < b.nCells, (b.cell j).owned = true →
    ∀ r < b.dim*b.nv + 1, (b.cell j).ltog r = (b.cell i).ltog (b.dim*b.nv) → j = i ∧ r = b.dim*b.nv
  directed : ∀ u, Unknown b u → signOf b u ≠ 0
  opposite : ∀ u v, Unknown b u → Unknown b v → u ≠ v → rowOf b u = rowOf b v →
    signOf b v = -signOf b u
  two : ∀ u v w, Unknown b u → Unknown b v → Unknown b w → u ≠ v → rowOf b u = rowOf b v →
    rowOf b u = rowOf b w → w = u ∨ w = v

/-- Two cells have a velocity unknown in common. -/
def ShareUnknown (b : Bdm) (i j : Nat) : Prop :=
  ∃ r r', Unknown b (i, r) ∧ Unknown b (j, r') ∧ (i, r) ≠ (j, r') ∧ rowOf b (i, r) = rowOf b (j, r')

/-- A cell has a velocity unknown that no other has: it lies on the boundary of the mesh. -/
def HasOwnUnknown (b : Bdm) (i : Nat) : Prop :=
  ∃ r, Unknown b (i, r) ∧ ∀ u, Unknown b u → rowOf b u = rowOf b (i, r) → u = (i, r)

/-- From every cell a chain of neighbours leads to the boundary of the mesh. -/
def ReachesBoundary (b : Bdm) : Prop :=
  ∀ i < b.nCells, (b.cell i).owned = true →
    ∃ j, Relation.ReflTransGen (ShareUnknown b) i j ∧ HasOwnUnknown b j

end

end TDy.Fe.Spec
