import Verif.Spec.Wy
import Mathlib.Logic.Relation

/-!
The reader's side of C183: cells tied to the boundary of the domain, and the solution of the WY system.
-/

namespace TDy.Fe.Spec

open TDy.Fe Finset

noncomputable section

/-- At vertex `v`, face `f` is a face of the cells `c` and `c'` and of no other cell; they see it from
opposite sides. -/
structure Between (w : Wy) (v : Nat) (cor : Nat → Nat) (f c c' : Nat) : Prop where
  ne : c ≠ c'
  left : c ∈ w.cells v ∧ ∃ i < w.dim, w.face c (cor c) i = f ∧ w.sign c (cor c) i = 1
  right : c' ∈ w.cells v ∧ ∃ i < w.dim, w.face c' (cor c') i = f ∧ w.sign c' (cor c') i = -1
  only : ∀ d ∈ w.cells v, ∀ i < w.dim, w.face d (cor d) i = f → d = c ∨ d = c'
  area : w.V f ≠ 0

/-- At vertex `v`, face `f` is a face of cell `c` only. -/
structure Outside (w : Wy) (v : Nat) (cor : Nat → Nat) (f c : Nat) : Prop where
  left : c ∈ w.cells v ∧ ∃ i < w.dim, w.face c (cor c) i = f ∧ w.sign c (cor c) i ≠ 0
  only : ∀ d ∈ w.cells v, ∀ i < w.dim, w.face d (cor d) i = f → d = c
  area : w.V f ≠ 0

/-- Two cells share a face at some vertex of this process. -/
def Linked (w : Wy) (cor : Nat → Nat → Nat) (c c' : Nat) : Prop :=
  ∃ v f, w.vStart ≤ v ∧ v < w.vEnd ∧ f ∈ w.faces v ∧
    (Between w v (cor v) f c c' ∨ Between w v (cor v) f c' c)

/-- A cell has a face on the boundary of the domain. -/
def AtBoundary (w : Wy) (cor : Nat → Nat → Nat) (c : Nat) : Prop :=
  ∃ v f, w.vStart ≤ v ∧ v < w.vEnd ∧ f ∈ w.faces v ∧ Outside w v (cor v) f c

/-- Every cell is linked, through any number of cells, to one at the boundary. -/
def Tied (w : Wy) (cor : Nat → Nat → Nat) : Prop :=
  ∀ c < w.nCells, ∃ c', Relation.ReflTransGen (Linked w cor) c c' ∧ AtBoundary w cor c'

/-- At vertex `v` only zeros of the stencil are left out of the matrix. -/
def NothingLost (w : Wy) (Al : Nat → Nat → Nat → ℝ) (v : Nat) : Prop :=
  match vertexSystem w Al v with
  | .ok t => match formStencil (w.faces v).length (w.cells v).length t with
    | .ok (C, _) => ∀ m q, |entry C m q| < threshold w Al v → entry C m q = 0
    | _ => True
  | _ => True

/-- The pressures `p` (by cell) solve the system with matrix `K` and right-hand side `b`; cell `c` has
the number `num c`. -/
def SolvesCells (w : Wy) (num : Nat → Nat) (K : Nat → Nat → ℝ) (b p : Nat → ℝ) : Prop :=
  ∀ c < w.nCells, ∑ c' ∈ range w.nCells, K (num c) (num c')*p c' = b c

end

end TDy.Fe.Spec
