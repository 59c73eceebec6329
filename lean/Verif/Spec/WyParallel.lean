import Verif.Spec.Wy

/-!
# Vocabulary for WY systems assembled on several processes

`SeesWy g l Kg Kl w` says that `l` is what a process holds of the mesh `g`: in its own numbering of
cells, vertices and faces, with the star of a vertex in its own order, and perhaps with the normal of a
face the other way.
-/

namespace TDy.Fe.Spec

open TDy.Fe

noncomputable section

/-- Which cell, vertex and face of the whole mesh those of the process are; `flip` says whose normals
point the other way. -/
structure WyView where
  cell : Nat → Nat
  vert : Nat → Nat
  face : Nat → Nat
  flip : Nat → Bool

/-- -1 where the normal points the other way. -/
def WyView.turn (w : WyView) (f : Nat) : ℝ := if w.flip f then -1 else 1

/-- A vertex of one of the cells the process owns. -/
def OwnCorner (m : Wy) (v : Nat) : Prop :=
  m.vStart ≤ v ∧ v < m.vEnd ∧ ∃ a ∈ m.cells v, 0 ≤ m.global a

/-- `l` with permeabilities `Kl` is what a process holds of the mesh `g` with permeabilities `Kg`.  All
the cells and faces at the vertices of its own cells are there; further out, anything may be missing. -/
structure SeesWy (g l : Wy) (Kg Kl : Nat → Nat → ℝ) (w : WyView) : Prop where
  dim : l.dim = g.dim
  nq : l.nq = g.nq
  tol : l.tol = g.tol
  hasPressure : l.hasPressure = g.hasPressure
  hasForcing : l.hasForcing = g.hasForcing
  cellLt : ∀ a < l.nCells, w.cell a < g.nCells
  cellInj : ∀ a < l.nCells, ∀ b < l.nCells, w.cell a = w.cell b → a = b
  /-- permeability, map to the reference cell and source of a cell -/
  perm : ∀ a < l.nCells, Kl a = Kg (w.cell a)
  inverse : ∀ a < l.nCells, ∀ q < l.nq, l.DFinv a q = g.DFinv (w.cell a) q
  jac : ∀ a < l.nCells, ∀ q < l.nq, l.J a q = g.J (w.cell a) q
  force : ∀ a < l.nCells, ∀ q < l.nq, l.force a q = g.force (w.cell a) q
  /-- the vertices of its own cells -/
  vertLt : ∀ v, OwnCorner l v → g.vStart ≤ w.vert v ∧ w.vert v < g.vEnd
  vertInj : ∀ v v', OwnCorner l v → OwnCorner l v' → w.vert v = w.vert v' → v = v'
  cells : ∀ v, OwnCorner l v → ((l.cells v).map w.cell).Perm (g.cells (w.vert v))
  faces : ∀ v, OwnCorner l v → ((l.faces v).map w.face).Perm (g.faces (w.vert v))
  corner : ∀ v, OwnCorner l v → ∀ a ∈ l.cells v, ∀ q < l.nq, l.vmap a q = v →
    g.vmap (w.cell a) q = w.vert v
  /-- the faces of a corner, their areas and the pressures given there -/
  face : ∀ v, OwnCorner l v → ∀ a ∈ l.cells v, ∀ q < l.nq, l.vmap a q = v → ∀ i < l.dim,
    g.face (w.cell a) q i = w.face (l.face a q i)
  sign : ∀ v, OwnCorner l v → ∀ a ∈ l.cells v, ∀ q < l.nq, l.vmap a q = v → ∀ i < l.dim,
    l.sign a q i = w.turn (l.face a q i)*g.sign (w.cell a) q i
  area : ∀ v, OwnCorner l v → ∀ f ∈ l.faces v, l.V f = g.V (w.face f)
  given : ∀ v, OwnCorner l v → ∀ f ∈ l.faces v, l.bc f = g.bc (w.face f)
  value : ∀ v, OwnCorner l v → ∀ f ∈ l.faces v, l.pb f = g.pb (w.face f)
  /-- the process holds every vertex of its own cells -/
  cover : ∀ a < l.nCells, 0 ≤ l.global a → ∀ v, g.vStart ≤ v → v < g.vEnd → w.cell a ∈ g.cells v →
    ∃ v', l.vStart ≤ v' ∧ v' < l.vEnd ∧ a ∈ l.cells v' ∧ w.vert v' = v

end

end TDy.Fe.Spec
