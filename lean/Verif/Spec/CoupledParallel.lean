import Verif.Spec.MpfaoParallel
import Verif.Model.MpfaoCoupled

/-!
# Vocabulary for runs of the coupled modes on several processes
-/

namespace TDy.Mpfao.Spec

open TDy.Mpfao

noncomputable section

/-- `l` is what a process holds of the mesh `g` in the salinity mode: what `Sees` says of the water, and
the same concentrations, salt sources and coefficients of dispersion. -/
structure SeesSalt (g l : Sal) (w : View) : Prop where
  base : Sees g.base l.base w
  cells : ∀ a < l.base.numCells, l.psi a = g.psi (w.cell a) ∧ l.saltSource a = g.saltSource (w.cell a)
  bnds : ∀ b < l.base.numBnd, l.psiBnd b = g.psiBnd (w.bnd b)
  corner : ∀ v < l.base.numVertices, (l.base.vert v).isLocal = true → l.corner v = g.corner (w.vert v)
  trans : ∀ v i, LocalSubface l.base v i → l.corner v = true → ∀ J,
    (∑ j ∈ Finset.range (l.base.vert v).nCols,
      if w.column g.base l.base ((l.base.vert v).col j) = J then l.psiM v i j else 0) =
    w.sign v i*∑ j ∈ Finset.range (g.base.vert (w.vert v)).nCols,
      if (g.base.vert (w.vert v)).col j = J then g.psiM (w.vert v) (w.row v i) j else 0

/-- `l` is what a process holds of the mesh `g` in the mode of water and heat. -/
structure SeesHeat (g l : Th) (w : View) : Prop where
  base : Sees g.base l.base w
  cells : ∀ a < l.base.numCells, l.heat a = g.heat (w.cell a)
  bnds : ∀ b < l.base.numBnd, l.tBnd b = g.tBnd (w.bnd b) ∧ l.hBnd b = g.hBnd (w.bnd b)
  eps : l.eps = g.eps
  trans : ∀ v i, LocalSubface l.base v i → ∀ J,
    (∑ j ∈ Finset.range (l.base.vert v).nCols,
      if w.column g.base l.base ((l.base.vert v).col j) = J then l.tempM v i j else 0) =
    w.sign v i*∑ j ∈ Finset.range (g.base.vert (w.vert v)).nCols,
      if (g.base.vert (w.vert v)).col j = J then g.tempM (w.vert v) (w.row v i) j else 0

/-- Where the process names the sides of a subface in the other order, pressures drive a flow through it or
gravity does not act on it. -/
def PressureDriven (g l : Ctx) (w : View) : Prop :=
  ∀ v i, LocalSubface l v i → w.flip v i = true →
    ttimesP g (slot (g.vert (w.vert v)) (w.row v i)) ≠ 0 ∨
    g.grav (slot (g.vert (w.vert v)) (w.row v i)) = 0

/-- The process owns the cell `a` and all cells before it in its numbering. -/
def GhostsLast (l : Ctx) (a : Nat) : Prop := ∀ k ≤ a, l.isLocal k = true

/-- A process that sees the mesh as it is. -/
def plainView : View :=
  { cell := id, bnd := id, vert := id, row := fun _ i => i, flip := fun _ _ => false
    around := fun _ k => k }

/-- A process that names the sides of all faces in the other order. -/
def swapView : View :=
  { cell := id, bnd := id, vert := id, row := fun _ i => i, flip := fun _ _ => true
    around := fun _ k => k }

/-- The mesh with the sides of all faces exchanged: rates and gravity then have the other sign. -/
def swapSides (c : Ctx) : Ctx :=
  { c with
    face := fun f => { c.face f with up := (c.face f).dn, dn := (c.face f).up }
    vert := fun v => { c.vert v with M := fun i j => -(c.vert v).M i j, T := fun i k => -(c.vert v).T i k }
    grav := fun k => -c.grav k }

end

end TDy.Mpfao.Spec
