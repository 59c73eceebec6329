import Verif.Spec.MpfaoTrans
import Verif.Model.MpfaoFlux

/-!
# The same vertex, listed in another way

Two processes (or two runs) may list the cells around a vertex and the three faces of each of them
in different orders, give the faces other numbers and name the sides of a face the other way round.
-/

namespace TDy.Mpfao.Spec

open TDy.Mpfao

noncomputable section

/-- `v'` is the vertex `v` listed in another way: subcell `i` of `v` is subcell `cell i` of `v'`, its
subface `f` is subface `sub i f`, face `x` is face `face x`, and `turn x` says that the sides of
face `x` are named the other way round, with its normal in the other direction. -/
structure Relisted (v v' : Vtx) (cell : Nat → Nat) (sub : Nat → Nat → Nat) (face : Nat → Nat)
    (turn : Nat → Bool) : Prop where
  npcen : v'.npcen = v.npcen
  dirichlet : v'.dirichlet = v.dirichlet
  cellLt : ∀ i < v.npcen, cell i < v.npcen
  cellInj : ∀ i < v.npcen, ∀ i' < v.npcen, cell i = cell i' → i = i'
  subLt : ∀ i f, InRange v i f → sub i f < 3
  subInj : ∀ i f f', InRange v i f → InRange v i f' → sub i f = sub i f' → f = f'
  faces : ∀ i f, InRange v i f → (v'.sub (cell i)).face (sub i f) = face ((v.sub i).face f)
  faceInj : ∀ i f i' f', InRange v i f → InRange v i' f' →
    face ((v.sub i).face f) = face ((v.sub i').face f') → (v.sub i).face f = (v.sub i').face f'
  internal : ∀ i f, InRange v i f → (v'.sub (cell i)).internal (sub i f) = (v.sub i).internal f
  G : ∀ i f k, InRange v i f → InRange v i k → (v'.sub (cell i)).G (sub i f) (sub i k) =
    (if turn ((v.sub i).face f) then -1 else 1)*(v.sub i).G f k

/-- Pressures of the cells and of the boundary faces that agree for the two lists. -/
structure SamePressures (v v' : Vtx) (cell : Nat → Nat) (sub : Nat → Nat → Nat)
    (u pb u' pb' : Nat → ℝ) : Prop where
  cells : ∀ i < v.npcen, u' (cell i) = u i
  bnds : ∀ i f, InRange v i f → (v.sub i).internal f = false →
    pb' ((v'.sub (cell i)).bnd (sub i f)) = pb ((v.sub i).bnd f)

/-- The rows a vertex of the mesh adds to the matrix of transmissibilities are those of `v`:
tdympfao.c 1454-1471. -/
structure Saved (numCells : Nat) (w : Vert) (v : Vtx) (T : Nat → Fin (v.npcen + nDir v) → ℝ) :
    Prop where
  nCols : w.nCols = v.npcen + nDir v
  cell : ∀ j < v.npcen, w.col j = w.cell j ∧ w.cell j < numCells
  bnd : ∀ j < nDir v, w.col (v.npcen + j) = numCells + idxBnd v j
  M : ∀ i < v.nFaces, ∀ j : Fin (v.npcen + nDir v), w.M i j = T i j

end

end TDy.Mpfao.Spec
