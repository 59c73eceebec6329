import Verif.Model.MeshSizes
import Mathlib.Data.Finset.Card
import Mathlib.Data.Finset.Lattice.Fold
import Mathlib.Order.Interval.Finset.Nat

/-! # Specification: how many cells and faces meet at a vertex -/

namespace TDy.Sizes.Spec

open TDy.Sizes Finset

/-- The incidences of a mesh: `at' o v` says that the cell or face `o` contains the vertex `v`. -/
structure Mesh where
  (vS vE fS fE cS cE : Nat)
  at' : Nat → Nat → Bool
  /-- the cells on the two sides of a face -/
  sides : Nat → Finset Nat

/-- The cells and the faces at a vertex. -/
def cellsAt (M : Mesh) (v : Nat) : Finset Nat := (Ico M.cS M.cE).filter (fun c => M.at' c v)

def facesAt (M : Mesh) (v : Nat) : Finset Nat := (Ico M.fS M.fE).filter (fun f => M.at' f v)

/-- The boundary faces at a vertex. -/
def boundaryAt (M : Mesh) (v : Nat) : Finset Nat :=
  (facesAt M v).filter (fun f => (M.sides f).card = 1)

/-- A face has at most two sides, and a cell at a vertex has a face there. -/
structure Proper (M : Mesh) : Prop where
  two_sides : ∀ f, (M.sides f).card ≤ 2
  cell_has_face : ∀ v c, c ∈ cellsAt M v → ∃ f ∈ facesAt M v, c ∈ M.sides f

/-- The saved closures are those of the mesh: the closure of a vertex lists the points that contain
it, each once. -/
structure SavedOf (M : Mesh) (s : Saved) : Prop where
  ranges : s.vS = M.vS ∧ s.vE = M.vE ∧ s.fS = M.fS ∧ s.fE = M.fE ∧ s.cS = M.cS ∧ s.cE = M.cE
  once : ∀ v, M.vS ≤ v → v < M.vE → ∀ i < s.size v, ∀ j < s.size v,
    s.closure v (2*i) = s.closure v (2*j) → i = j
  lists : ∀ v, M.vS ≤ v → v < M.vE → ∀ o, (M.cS ≤ o ∧ o < M.cE ∨ M.fS ≤ o ∧ o < M.fE) →
    ((∃ i < s.size v, s.closure v (2*i) = o) ↔ M.at' o v = true)

/-- What the rank's tables say of vertex `v` (numbered from 0) agrees with the mesh. -/
structure Describes (M : Mesh) (x : Nat → Vtx) : Prop where
  cells : ∀ v < M.vE - M.vS, (x v).cells = (cellsAt M (M.vS + v)).card
  faces : ∀ v < M.vE - M.vS, (x v).faces = (facesAt M (M.vS + v)).card
  bnd : ∀ v < M.vE - M.vS, (x v).bnd = (boundaryAt M (M.vS + v)).card
  up_dn : ∀ v < M.vE - M.vS, (x v).up + (x v).dn = (boundaryAt M (M.vS + v)).card
  /-- a cell of a vertex that is alone there has three faces there -/
  corner : ∀ v < M.vE - M.vS, (x v).cells = 1 → (x v).faces = 3
  /-- every vertex belongs to a cell -/
  used : ∀ v < M.vE - M.vS, 1 ≤ (x v).cells

end TDy.Sizes.Spec
