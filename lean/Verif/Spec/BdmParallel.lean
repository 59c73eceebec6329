import Verif.Spec.Bdm
import Mathlib.Logic.Equiv.Defs

/-!
# Specification: a process that sees part of a mesh of the BDM method

`g` is the whole mesh on one process, `l` what one of several processes has.  Points have other numbers
there, and the rows of the system have other numbers too: row `a` of the one process is row `num a`.
-/

namespace TDy.Fe.Spec

open TDy.Fe Finset

/-- The two cells are the same one in two numberings. -/
structure SameBCell (b : Bdm) (num : Equiv.Perm Nat) (d c : BCell) : Prop where
  row : ∀ r < b.dim*b.nv + 1, c.ltog r = num (d.ltog r)
  orient : c.orient = d.orient
  nq : c.nq = d.nq
  pt : c.pt = d.pt
  nFaces : c.nFaces = d.nFaces
  face : ∀ i < d.nFaces, (c.face i).isbc = (d.face i).isbc ∧ (c.face i).normal = (d.face i).normal
    ∧ (c.face i).side = (d.face i).side ∧ (c.face i).nq = (d.face i).nq ∧ (c.face i).pt = (d.face i).pt
  /-- A corner and direction refer to a face of the cell in one numbering if they do in the other. -/
  refers : ∀ i < d.nFaces, ∀ k < b.nv*b.dim,
    (c.emap k).natAbs = (c.face i).id ↔ (d.emap k).natAbs = (d.face i).id

/-- What a process has: the cells it owns are cells of the whole mesh, with their permeabilities, and the
conditions are the same. -/
structure SeesBdm (g l : Bdm) (Kg Kl : Nat → Nat → ℝ) (cell : Nat → Nat) (num : Equiv.Perm Nat) :
    Prop where
  dim : l.dim = g.dim
  nv : l.nv = g.nv
  hasForcing : l.hasForcing = g.hasForcing
  hasPressure : l.hasPressure = g.hasPressure
  there : ∀ a < l.nCells, (l.cell a).owned = true → cell a < g.nCells
  same : ∀ a < l.nCells, (l.cell a).owned = true → SameBCell g num (g.cell (cell a)) (l.cell a)
  perm : ∀ a < l.nCells, (l.cell a).owned = true → Kl a = Kg (cell a)

/-- Every cell of the whole mesh is owned by exactly one of the `P` processes, as one cell. -/
def OwnedOnce (g : Bdm) (P : Nat) (l : Nat → Bdm) (cell : Nat → Nat → Nat) : Prop :=
  ∀ c < g.nCells, ∃ p < P, ∃ a < (l p).nCells, ((l p).cell a).owned = true ∧ cell p a = c ∧
    ∀ p' < P, ∀ a' < (l p').nCells, ((l p').cell a').owned = true → cell p' a' = c → p' = p ∧ a' = a

end TDy.Fe.Spec
