import Verif.Spec.MpfaoFlux

/-!
# Vocabulary for runs on several processes

A process sees a part of the mesh, in its own numbering of cells, boundary faces, vertices and of
the subfaces around a vertex, and it may name the two sides of a face in the other order.
`Sees g l w` says that `l` is what a process holds of the mesh `g`.
-/

namespace TDy.Mpfao.Spec

open TDy.Mpfao

noncomputable section

/-- Which cell, boundary face, vertex and subface of the whole mesh those of the process are, for
which subfaces the process names the two sides in the other order, and which of the cells around a
vertex those of the process are. -/
structure View where
  cell : Nat → Nat
  bnd : Nat → Nat
  vert : Nat → Nat
  row : Nat → Nat → Nat
  flip : Nat → Nat → Bool
  around : Nat → Nat → Nat

/-- The side of a face in the whole mesh: a cell, or a boundary face (negative). -/
def View.side (w : View) (id : ℤ) : ℤ :=
  if 0 ≤ id then (w.cell id.toNat : ℤ) else -(w.bnd (-id - 1).toNat : ℤ) - 1

/-- The column of a cell, or of a boundary face, in the whole mesh. -/
def View.column (w : View) (g l : Ctx) (j : Nat) : Nat :=
  if j < l.numCells then w.cell j else g.numCells + w.bnd (j - l.numCells)

/-- -1 where the sides are exchanged. -/
def View.sign (w : View) (v i : Nat) : ℝ := if w.flip v i then -1 else 1

/-- The number of a cell or of a boundary face of the mesh. -/
def SideOk (c : Ctx) (id : ℤ) : Prop := -(c.numBnd : ℤ) ≤ id ∧ id < c.numCells

/-- Row `i` of the local vertex `v` exists. -/
def LocalSubface (c : Ctx) (v i : Nat) : Prop := IsSubface c v i ∧ (c.vert v).isLocal = true

/-- Every subface has its own entry in the vectors of subfaces, and is read where it is written. -/
structure Addressed (c : Ctx) : Prop where
  slots : ∀ v i v' i', LocalSubface c v i → LocalSubface c v' i' →
    slot (c.vert v) i = slot (c.vert v') i' → v = v' ∧ i = i'
  own : ∀ v i, LocalSubface c v i → wslot (c.vert v) i = slot (c.vert v) i
  cols : ∀ v, v < c.numVertices → (c.vert v).isLocal = true → ∀ j < (c.vert v).nCols,
    (c.vert v).col j < c.numCells + c.numBnd

/-- `l` is what a process holds of the mesh `g`: the same values for the same cells, boundary faces
and subfaces, and all the subfaces of the cells it owns. -/
structure Sees (g l : Ctx) (w : View) : Prop where
  /-- cells and their data -/
  cellLt : ∀ a < l.numCells, w.cell a < g.numCells
  cellInj : ∀ a < l.numCells, ∀ b < l.numCells, w.cell a = w.cell b → a = b
  cells : ∀ a < l.numCells, l.cells a = g.cells (w.cell a) ∧ l.vol a = g.vol (w.cell a) ∧
    l.por a = g.por (w.cell a) ∧ l.source a = g.source (w.cell a)
  /-- boundary faces and their data -/
  bndLt : ∀ b < l.numBnd, w.bnd b < g.numBnd
  bnds : ∀ b < l.numBnd, l.bnds b = g.bnds (w.bnd b)
  bc : l.bc = g.bc
  pref : l.Pref = g.Pref
  /-- vertices -/
  vertLt : ∀ v < l.numVertices, (l.vert v).isLocal = true → w.vert v < g.numVertices
  vertInj : ∀ v < l.numVertices, ∀ v' < l.numVertices, (l.vert v).isLocal = true →
    (l.vert v').isLocal = true → w.vert v = w.vert v' → v = v'
  /-- subfaces of a vertex -/
  rows : ∀ v < l.numVertices, (l.vert v).isLocal = true →
    (l.vert v).nRows = (g.vert (w.vert v)).nRows
  rowLt : ∀ v i, LocalSubface l v i → w.row v i < (g.vert (w.vert v)).nRows
  rowInj : ∀ v i i', LocalSubface l v i → LocalSubface l v i' → w.row v i = w.row v i' → i = i'
  /-- their faces -/
  upOk : ∀ v i, LocalSubface l v i → SideOk l (faceOf l v i).up
  dnOk : ∀ v i, LocalSubface l v i → SideOk l (faceOf l v i).dn
  sides : ∀ v i, LocalSubface l v i → w.flip v i = false →
    w.side (faceOf l v i).up = (faceOf g (w.vert v) (w.row v i)).up ∧
    w.side (faceOf l v i).dn = (faceOf g (w.vert v) (w.row v i)).dn
  flipped : ∀ v i, LocalSubface l v i → w.flip v i = true →
    w.side (faceOf l v i).up = (faceOf g (w.vert v) (w.row v i)).dn ∧
    w.side (faceOf l v i).dn = (faceOf g (w.vert v) (w.row v i)).up
  /-- gravity and transmissibilities -/
  grav : ∀ v i, LocalSubface l v i → l.grav (slot (l.vert v) i) =
    w.sign v i*g.grav (slot (g.vert (w.vert v)) (w.row v i))
  trans : ∀ v i, LocalSubface l v i → ∀ J,
    (∑ j ∈ Finset.range (l.vert v).nCols,
      if w.column g l ((l.vert v).col j) = J then (l.vert v).M i j else 0) =
    w.sign v i*∑ j ∈ Finset.range (g.vert (w.vert v)).nCols,
      if (g.vert (w.vert v)).col j = J then (g.vert (w.vert v)).M (w.row v i) j else 0
  /-- a subface of a cell of this process is worked on by this process -/
  touch : ∀ v i, IsSubface l v i →
    (0 ≤ (faceOf l v i).up ∧ l.isLocal (faceOf l v i).up.toNat = true) ∨
    (0 ≤ (faceOf l v i).dn ∧ l.isLocal (faceOf l v i).dn.toNat = true) →
    (l.vert v).isLocal = true ∧ (faceOf l v i).isLocal = true
  /-- the process sees every vertex of its cells -/
  cover : ∀ a < l.numCells, l.isLocal a = true → ∀ V I, IsSubface g V I →
    (faceOf g V I).up = w.cell a ∨ (faceOf g V I).dn = w.cell a →
    ∃ v < l.numVertices, (l.vert v).isLocal = true ∧ w.vert v = V

/-- The transmissibilities kept for the Jacobian are the same, the process lists the same cells
around a vertex, and a face has two sides. -/
structure SeesJac (g l : Ctx) (w : View) : Prop where
  cells : ∀ v < l.numVertices, (l.vert v).isLocal = true →
    (l.vert v).nCells = (g.vert (w.vert v)).nCells
  lt : ∀ v < l.numVertices, (l.vert v).isLocal = true → ∀ k < (l.vert v).nCells,
    (l.vert v).cell k < l.numCells ∧ w.around v k < (g.vert (w.vert v)).nCells
  inj : ∀ v < l.numVertices, (l.vert v).isLocal = true → ∀ k < (l.vert v).nCells,
    ∀ k' < (l.vert v).nCells, w.around v k = w.around v k' → k = k'
  same : ∀ v < l.numVertices, (l.vert v).isLocal = true → ∀ k < (l.vert v).nCells,
    (g.vert (w.vert v)).cell (w.around v k) = w.cell ((l.vert v).cell k)
  trans : ∀ v i, LocalSubface l v i → ∀ k < (l.vert v).nCells, (l.vert v).T i k =
    w.sign v i*(g.vert (w.vert v)).T (w.row v i) (w.around v k)
  ne : ∀ V I, IsSubface g V I → (faceOf g V I).up ≠ (faceOf g V I).dn
  second : ∀ a < l.numCells, l.d2S a = g.d2S (w.cell a) ∧ l.d2rho a = g.d2rho (w.cell a)

/-- The water is at rest in no subface whose sides the process names in the other order. (At rest
the derivative of the flux jumps, and which of the two values the Jacobian takes depends on the
order of the sides.) -/
def Moving (g l : Ctx) (w : View) : Prop :=
  ∀ v i, LocalSubface l v i → w.flip v i = true →
    driving g (faceOf g (w.vert v) (w.row v i))
      (ttimesP g (slot (g.vert (w.vert v)) (w.row v i)))
      (g.grav (slot (g.vert (w.vert v)) (w.row v i))) ≠ 0

end

end TDy.Mpfao.Spec
