import Verif.Spec.MpfaoSteady

/-!
# Vocabulary for steady systems assembled on several processes

`SeesSteady g l w` says that `l` is what a process holds of the mesh `g`: in its own numbering of
cells, vertices, subfaces and boundary faces, and perhaps with the sides of a face in the other order.
-/

namespace TDy.Mpfao.Spec

open TDy.Mpfao

noncomputable section

/-- Which cell, vertex, subface, cell around a vertex, boundary column of a vertex and face of a corner
of the whole mesh those of the process are; `flip` and `cflip` say where the sides are exchanged. -/
structure SteadyView where
  cell : Nat → Nat
  vert : Nat → Nat
  row : Nat → Nat → Nat
  flip : Nat → Nat → Bool
  around : Nat → Nat → Nat
  bnd : Nat → Nat → Nat
  crow : Nat → Nat → Nat
  cflip : Nat → Nat → Bool

/-- -1 where the sides are exchanged. -/
def flipSign (b : Bool) : ℝ := if b then -1 else 1

/-- A cell on one side of a face is the same cell of the whole mesh; outside is outside. -/
def SameSide (w : SteadyView) (a b : ℤ) : Prop :=
  (0 ≤ a → b = w.cell a.toNat) ∧ (a < 0 → b < 0)

/-- The cells around a vertex are cells of the mesh, and the cells on the sides of the faces of a vertex
are among them. -/
structure Surrounded (m : Steady) : Prop where
  cells : ∀ v < m.numVertices, ∀ k < (m.vert v).nCells, (m.vert v).cell k < m.numCells
  up : ∀ v < m.numVertices, ∀ i < (m.vert v).nFaces, 0 ≤ (m.face ((m.vert v).face i)).up →
    ∃ k < (m.vert v).nCells, (m.vert v).cell k = (m.face ((m.vert v).face i)).up.toNat
  dn : ∀ v < m.numVertices, ∀ i < (m.vert v).nFaces, 0 ≤ (m.face ((m.vert v).face i)).dn →
    ∃ k < (m.vert v).nCells, (m.vert v).cell k = (m.face ((m.vert v).face i)).dn.toNat
  gids : ∀ a < m.numCells, ∀ b < m.numCells, m.gid a = m.gid b → a = b

/-- A single process holds everything. -/
structure HoldsAll (m : Steady) : Prop where
  cell : ∀ c, m.isLocal c = true
  vert : ∀ v, (m.vert v).isLocal = true

/-- Cell `a` is around vertex `v`. -/
def At (m : Steady) (v a : Nat) : Prop := ∃ k < (m.vert v).nCells, (m.vert v).cell k = a

/-- A vertex of one of the cells the process owns. -/
def OwnVertex (m : Steady) (v : Nat) : Prop :=
  v < m.numVertices ∧ ∃ a, m.isLocal a = true ∧ At m v a

/-- `l` is what a process holds of the mesh `g`.  The same transmissibilities belong to the same
subfaces and cells around the vertices of its own cells. -/
structure SeesSteady (g l : Steady) (w : SteadyView) : Prop where
  cellLt : ∀ a < l.numCells, w.cell a < g.numCells
  cellInj : ∀ a < l.numCells, ∀ b < l.numCells, w.cell a = w.cell b → a = b
  vertLt : ∀ v, OwnVertex l v → w.vert v < g.numVertices
  vertInj : ∀ v v', OwnVertex l v → OwnVertex l v' → w.vert v = w.vert v' → v = v'
  vertLocal : ∀ v, OwnVertex l v → (l.vert v).isLocal = true
  nFaces : ∀ v, OwnVertex l v → (l.vert v).nFaces = (g.vert (w.vert v)).nFaces
  nBnd : ∀ v, OwnVertex l v → (l.vert v).nBnd = (g.vert (w.vert v)).nBnd
  nCells : ∀ v, OwnVertex l v → (l.vert v).nCells = (g.vert (w.vert v)).nCells
  /-- subfaces -/
  rowLt : ∀ v, OwnVertex l v → ∀ i < (l.vert v).nFaces, w.row v i < (l.vert v).nFaces
  rowInj : ∀ v, OwnVertex l v → ∀ i < (l.vert v).nFaces, ∀ j < (l.vert v).nFaces,
    w.row v i = w.row v j → i = j
  sides : ∀ v, OwnVertex l v → ∀ i < (l.vert v).nFaces, w.flip v i = false →
    SameSide w (l.face ((l.vert v).face i)).up
      (g.face ((g.vert (w.vert v)).face (w.row v i))).up ∧
    SameSide w (l.face ((l.vert v).face i)).dn (g.face ((g.vert (w.vert v)).face (w.row v i))).dn
  flipped : ∀ v, OwnVertex l v → ∀ i < (l.vert v).nFaces, w.flip v i = true →
    SameSide w (l.face ((l.vert v).face i)).up
      (g.face ((g.vert (w.vert v)).face (w.row v i))).dn ∧
    SameSide w (l.face ((l.vert v).face i)).dn (g.face ((g.vert (w.vert v)).face (w.row v i))).up
  /-- cells around a vertex, and boundary faces at it -/
  aroundLt : ∀ v, OwnVertex l v → ∀ k < (l.vert v).nCells, w.around v k < (l.vert v).nCells
  aroundInj : ∀ v, OwnVertex l v → ∀ k < (l.vert v).nCells, ∀ j < (l.vert v).nCells,
    w.around v k = w.around v j → k = j
  around : ∀ v, OwnVertex l v → ∀ k < (l.vert v).nCells,
    (g.vert (w.vert v)).cell (w.around v k) = w.cell ((l.vert v).cell k)
  bndLt : ∀ v, OwnVertex l v → ∀ k < (l.vert v).nBnd, w.bnd v k < (l.vert v).nBnd
  bndInj : ∀ v, OwnVertex l v → ∀ k < (l.vert v).nBnd, ∀ j < (l.vert v).nBnd,
    w.bnd v k = w.bnd v j → k = j
  bndP : ∀ v, OwnVertex l v → ∀ k < (l.vert v).nBnd,
    (l.vert v).bndP k = (g.vert (w.vert v)).bndP (w.bnd v k)
  /-- transmissibilities: columns of cells, then of boundary faces -/
  transCell : ∀ v, OwnVertex l v → ¬IsCorner (l.vert v) → ∀ i < (l.vert v).nFaces,
    ∀ k < (l.vert v).nCells, (l.vert v).T i k =
      flipSign (w.flip v i)*(g.vert (w.vert v)).T (w.row v i) (w.around v k)
  transBnd : ∀ v, OwnVertex l v → ¬IsCorner (l.vert v) → ∀ i < (l.vert v).nFaces,
    ∀ k < (l.vert v).nBnd, (l.vert v).T i (k + (l.vert v).nCells) =
      flipSign (w.flip v i)*
        (g.vert (w.vert v)).T (w.row v i) (w.bnd v k + (l.vert v).nCells)
  /-- a corner: its three faces, and columns of boundary faces only -/
  crowLt : ∀ v, OwnVertex l v → IsCorner (l.vert v) → ∀ i < 3, w.crow v i < 3
  crowInj : ∀ v, OwnVertex l v → IsCorner (l.vert v) → ∀ i < 3, ∀ j < 3,
    w.crow v i = w.crow v j → i = j
  csides : ∀ v, OwnVertex l v → IsCorner (l.vert v) → ∀ i < 3,
    (0 ≤ (g.face ((g.vert (w.vert v)).subFace (w.crow v i))).up ↔
      if w.cflip v i then ¬0 ≤ (l.face ((l.vert v).subFace i)).up
      else 0 ≤ (l.face ((l.vert v).subFace i)).up)
  ctrans : ∀ v, OwnVertex l v → IsCorner (l.vert v) → ∀ i < 3, ∀ k < 3, (l.vert v).T i k =
    flipSign (w.cflip v i)*(g.vert (w.vert v)).T (w.crow v i) (w.bnd v k)
  /-- the source -/
  source : match l.forcing, g.forcing with
    | none, none => True
    | some f, some F => ∀ a < l.numCells, f a*l.vol a = F (w.cell a)*g.vol (w.cell a)
    | _, _ => False
  /-- the process holds every vertex of its cells -/
  cover : ∀ a < l.numCells, l.isLocal a = true → ∀ V < g.numVertices, At g V (w.cell a) →
    ∃ v < l.numVertices, At l v a ∧ w.vert v = V

end

end TDy.Mpfao.Spec
