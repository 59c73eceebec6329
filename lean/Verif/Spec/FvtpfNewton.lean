import Verif.Spec.FvtpfMonotone
import Mathlib.Logic.Relation
import Mathlib.Algebra.BigOperators.Fin

/-!
The reader's side of C182: the Newton systems of the two-point method.
-/

namespace TDy.Fvtpf.Spec

open TDy.Fvtpf TDy.Geo

/-- A state of the solver on one process: all cells conduct, the water is incompressible and has a
constant viscosity, saturation and relative permeability do not fall with the pressure. -/
structure NewtonState (c : Ctx) : Prop where
  wf : WellFormed c
  own : ∀ j, c.isLocal j = true
  conducting : Conducting c
  density : ∀ j < c.numCells, (c.cells j).drho = 0
  viscosity : ∀ j < c.numCells, (c.cells j).dvis = 0
  saturation : ∀ j < c.numCells, 0 ≤ (c.cells j).dSdP
  conductivity : ∀ j < c.numCells, 0 ≤ (c.cells j).dKrdS
  space : ∀ j < c.numCells, 0 ≤ c.por j ∧ 0 ≤ c.vol j

/-- A cell that takes up water when its pressure rises. -/
def Stores (c : Ctx) (j : Nat) : Prop := 0 < c.por j*(c.cells j).dSdP*c.vol j

/-- Two cells with a face between them. -/
def Joined (c : Ctx) (j k : Nat) : Prop :=
  ∃ i < c.numFaces, IsInternal c i ∧ 0 < (c.face i).geom.area ∧
    (((c.face i).up.toNat = j ∧ (c.face i).dn.toNat = k) ∨
     ((c.face i).up.toNat = k ∧ (c.face i).dn.toNat = j))

/-- A cell with a boundary face of the given kind, `b` the state there: `drop` is what drives water
from the boundary into the cell. -/
def HasBoundary (c : Ctx) (j : Nat) (kind : Bc) (P : Side → ℝ → Prop) : Prop :=
  ∃ i < c.numFaces, IsOpenBoundary c i ∧ (c.face i).bc = kind ∧ (c.face i).dn.toNat = j ∧
    0 < (c.face i).geom.area ∧ ∃ b, bndAt c (bndIndex (c.face i).up) = some b ∧
      P b (dphi (dists c (c.face i)).1 (dists c (c.face i)).2 b (c.cells j))

/-- Water leaves the cell through a face of prescribed pressure. -/
def Drains (c : Ctx) (j : Nat) : Prop := HasBoundary c j .dirichlet (fun _ drop => drop < 0)

/-- The cell has a seepage face that water leaves through, or that conducts and is under pressure. -/
def Seeps (c : Ctx) (j : Nat) : Prop :=
  HasBoundary c j .seepage (fun b drop => drop < 0 ∨ (1e-8 ≤ b.P - c.Pref ∧ 0 < b.Kr))

/-- Something in the Newton system of cell `j` depends on the level of its pressure. -/
def Anchored (c : Ctx) (j : Nat) : Prop := Stores c j ∨ Drains c j ∨ Seeps c j

/-- Every cell is joined, through any number of cells, to one that is anchored. -/
def AllAnchored (c : Ctx) : Prop :=
  ∀ j < c.numCells, ∃ k, Relation.ReflTransGen (Joined c) j k ∧ Anchored c k

/-- `x` solves the linear system with matrix `B` of `n` cells. -/
def Solves {n : Nat} (B : Nat → Nat → ℝ) (rhs x : Fin n → ℝ) : Prop :=
  ∀ i : Fin n, ∑ j : Fin n, B i j*x j = rhs i

end TDy.Fvtpf.Spec
