import Verif.Spec.Fvtpf

/-!
The reader's side of C180 and C181: a step of the two-point method that has been solved, and runs
that differ in the water they hold only.
-/

namespace TDy.Fvtpf.Spec

open TDy.Fvtpf TDy.Geo

/-- `c` is the state after a step of length `dt` that was solved on one process, `prev` the state
before it: the residual is zero in every cell, whatever the accumulation array and the local
variables held. -/
structure Solved (prev c : Ctx) (dt : ℝ) : Prop where
  wf : WellFormed c
  own : ∀ j, c.isLocal j = true
  ownPrev : ∀ j, prev.isLocal j = true
  cells : prev.numCells = c.numCells
  length : 0 < dt
  zero : ∃ old junk R, snesFunction c dt (fillAccum prev dt old) junk = some R ∧
    ∀ j < c.numCells, R j = 0

/-- Faces and materials are physical, so are all states, and every cell conducts water. -/
structure Conducting (c : Ctx) : Prop where
  geom : ∀ i < c.numFaces, GoodGeom (c.face i).geom
  perm : ∀ i, GoodPerm (c.K0 i)
  cell : ∀ j < c.numCells, Physical (c.cells j)
  bnd : ∀ b < c.numBnd, Physical (c.bnds b)
  mobile : ∀ j < c.numCells, 1e-8 < (c.cells j).Kr

/-- In a cell, more pressure means more water. -/
def MoreWater (a b : Ctx) (j : Nat) : Prop := (a.cells j).P < (b.cells j).P → mass a j < mass b j

/-- Two states of one model: everything agrees but the states of the cells and the sources. -/
def SameModel (a b : Ctx) : Prop := b = { a with cells := b.cells, source := b.source }

/-- Incompressible water of constant viscosity. -/
structure Incompressible (c : Ctx) (rho vis : ℝ) : Prop where
  density : ∀ j < c.numCells, (c.cells j).rho = rho
  viscosity : ∀ j < c.numCells, (c.cells j).vis = vis
  boundary : ∀ b < c.numBnd, (c.bnds b).rho = rho

/-- The curves of every cell are monotone: at a pressure that is not lower, a cell neither holds less
water nor conducts less. -/
def MonotoneCurves (a b : Ctx) : Prop :=
  ∀ j < a.numCells, (a.cells j).P ≤ (b.cells j).P →
    mass a j ≤ mass b j ∧ (a.cells j).Kr ≤ (b.cells j).Kr

/-- Two states of one model, of incompressible water, whose cells all conduct and have monotone
curves. -/
structure Comparable (a b : Ctx) (rho vis : ℝ) : Prop where
  same : SameModel a b
  condA : Conducting a
  condB : Conducting b
  incA : Incompressible a rho vis
  incB : Incompressible b rho vis
  ab : MonotoneCurves a b
  ba : MonotoneCurves b a
  pos : 0 < rho ∧ 0 < vis

end TDy.Fvtpf.Spec
