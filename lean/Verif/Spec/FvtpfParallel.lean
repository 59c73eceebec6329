import Verif.Spec.Fvtpf

/-!
# Vocabulary for runs of the two-point method on several processes

A process sees a part of the mesh, in its own numbering of cells, faces and boundary faces, and it
may name the two sides of a face between two cells in the other order.
-/

namespace TDy.Fvtpf.Spec

open TDy.Fvtpf TDy.Geo

noncomputable section

/-- Which cell, face and boundary face of the whole mesh those of the process are, and for which
faces the process names the two sides in the other order. -/
structure View where
  cell : Nat → Nat
  bnd : Nat → Nat
  face : Nat → Nat
  flip : Nat → Bool

/-- The side of a face in the whole mesh: a cell, or a boundary face (negative). -/
def View.side (w : View) (id : ℤ) : ℤ :=
  if 0 ≤ id then (w.cell id.toNat : ℤ) else -(w.bnd (-id - 1).toNat : ℤ) - 1

/-- The two sides of every face between cells are cells of the mesh; a boundary face has the
boundary above it and a cell below it. -/
structure Shaped (c : Ctx) : Prop where
  internal : ∀ i < c.numFaces, (c.face i).isLocal = true → (c.face i).isInternal = true →
    0 ≤ (c.face i).up ∧ (c.face i).up < c.numCells ∧ 0 ≤ (c.face i).dn ∧ (c.face i).dn < c.numCells
  boundary : ∀ i < c.numFaces, (c.face i).isLocal = true → (c.face i).isInternal = false →
    -(c.numBnd : ℤ) ≤ (c.face i).up ∧ (c.face i).up < 0 ∧ 0 ≤ (c.face i).dn ∧
      (c.face i).dn < c.numCells

/-- A single process works on all faces and cells. -/
structure Alone (c : Ctx) : Prop where
  shaped : Shaped c
  faces : ∀ i < c.numFaces, (c.face i).isLocal = true
  cells : ∀ j < c.numCells, c.isLocal j = true
  dist : ∀ i < c.numFaces, (c.face i).geom.dUp + (c.face i).geom.dDn ≠ 0

/-- `l` is what a process holds of the mesh `g`. -/
structure Sees (g l : Ctx) (w : View) : Prop where
  shaped : Shaped l
  cellLt : ∀ a < l.numCells, w.cell a < g.numCells
  cellInj : ∀ a < l.numCells, ∀ b < l.numCells, w.cell a = w.cell b → a = b
  cells : ∀ a < l.numCells, l.cells a = g.cells (w.cell a) ∧ l.vol a = g.vol (w.cell a) ∧
    l.por a = g.por (w.cell a) ∧ l.source a = g.source (w.cell a) ∧ l.K0 a = g.K0 (w.cell a)
  bndLt : ∀ b < l.numBnd, w.bnd b < g.numBnd
  bnds : ∀ b < l.numBnd, l.bnds b = g.bnds (w.bnd b)
  gravity : l.gravity = g.gravity
  pref : l.Pref = g.Pref
  faceLt : ∀ i < l.numFaces, (l.face i).isLocal = true → w.face i < g.numFaces
  faceInj : ∀ i < l.numFaces, ∀ i' < l.numFaces, (l.face i).isLocal = true →
    (l.face i').isLocal = true → w.face i = w.face i' → i = i'
  kind : ∀ i < l.numFaces, (l.face i).isLocal = true →
    (l.face i).isInternal = (g.face (w.face i)).isInternal ∧ (l.face i).bc = (g.face (w.face i)).bc
  kept : ∀ i < l.numFaces, (l.face i).isLocal = true → w.flip i = false →
    (g.face (w.face i)).up = w.side (l.face i).up ∧ (g.face (w.face i)).dn = w.side (l.face i).dn ∧
    (l.face i).geom = (g.face (w.face i)).geom
  turned : ∀ i < l.numFaces, (l.face i).isLocal = true → w.flip i = true →
    (l.face i).isInternal = true ∧
    (g.face (w.face i)).dn = w.side (l.face i).up ∧ (g.face (w.face i)).up = w.side (l.face i).dn ∧
    (l.face i).geom = swapGeom (g.face (w.face i)).geom
  /-- the process works on every face of its cells -/
  cover : ∀ a < l.numCells, l.isLocal a = true → ∀ I < g.numFaces,
    (g.face I).up = w.cell a ∨ (g.face I).dn = w.cell a →
    ∃ i < l.numFaces, (l.face i).isLocal = true ∧ w.face i = I

/-- One of the two sides of every face between cells is mobile (else the flux is not set, C43). -/
def AllMobile (c : Ctx) : Prop := ∀ i < c.numFaces, (c.face i).isInternal = true →
  mobile (c.cells (c.face i).up.toNat) (c.cells (c.face i).dn.toNat)

/-- The same for boundary faces that are not closed. -/
def BndMobile (c : Ctx) : Prop := ∀ i < c.numFaces, (c.face i).isInternal = false →
  (c.face i).bc ≠ .neumann → mobile (c.bnds (-(c.face i).up - 1).toNat) (c.cells (c.face i).dn.toNat)

/-- Where the sides are named in the other order, they are not both dry (else the flux depends on
the order, C38). -/
def NotDry (g l : Ctx) (w : View) : Prop := ∀ i < l.numFaces, (l.face i).isLocal = true →
  w.flip i = true → ¬ ((g.cells (g.face (w.face i)).up.toNat).S < 1e-8 ∧
    (g.cells (g.face (w.face i)).dn.toNat).S < 1e-8)

/-- Where the sides are named in the other order the water is not exactly at rest (there the
derivative of the flux jumps). -/
def Flowing (g l : Ctx) (w : View) : Prop := ∀ i < l.numFaces, (l.face i).isLocal = true →
  w.flip i = true → dphi (dists g (g.face (w.face i))).1 (dists g (g.face (w.face i))).2
    (g.cells (g.face (w.face i)).up.toNat) (g.cells (g.face (w.face i)).dn.toNat) ≠ 0

end

end TDy.Fvtpf.Spec
