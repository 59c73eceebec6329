import Verif.Spec.HeatState

/-! # Vocabulary for the range of temperatures -/

namespace TDy.Mpfao.Spec

open TDy TDy.Mpfao

noncomputable section

/-- Temperature on one side of a face: of a cell, or of boundary face `b`, which is written `-b - 1`. -/
def tempOf (t : Th) (id : ℤ) : ℝ :=
  if 0 ≤ id then (t.heat id.toNat).T else t.tBnd (-id - 1).toNat

/-- Heat is conducted through every part of a face from the hotter to the colder side. -/
def HotToCold (t : Th) : Prop := ∀ v i, IsSubface t.base v i →
  (tempOf t (faceOf t.base v i).up ≤ tempOf t (faceOf t.base v i).dn → 0 ≤ thTempTP t v i) ∧
  (tempOf t (faceOf t.base v i).dn ≤ tempOf t (faceOf t.base v i).up → thTempTP t v i ≤ 0)

/-- One process, a sound mesh with rock in every cell, and one enthalpy. -/
structure RockAndWater (t : Th) (H : ℝ) : Prop where
  one : OneEnthalpy t H
  faces : FacesOk t.base
  bnd : BoundaryOk t.base
  own : OwnsAll t.base
  rock : ∀ j < t.base.numCells, 0 < (t.heat j).rock
  por : ∀ j < t.base.numCells, t.base.por j < 1
  vol : ∀ j < t.base.numCells, 0 < t.base.vol j

/-- An implicit step of length `dt` from the temperatures `T0` to those of `t`, in which the pressures
change at the rates `dpdt`: all balances are fulfilled. -/
structure HeatStep (t : Th) (dt : ℝ) (T0 dpdt : Nat → ℝ) : Prop where
  pos : 0 < dt
  water : ∀ j < t.base.numCells,
    thFunction t dpdt (fun j => ((t.heat j).T - T0 j)/dt) (2*j) = 0
  energy : ∀ j < t.base.numCells,
    thFunction t dpdt (fun j => ((t.heat j).T - T0 j)/dt) (2*j + 1) = 0

/-- What heats cell `j` per volume besides conduction: the pressure on the water that accumulates, and the
heat source without the enthalpy of the water source. -/
def heating (t : Th) (H : ℝ) (dpdt : Nat → ℝ) (j : Nat) : ℝ :=
  (t.base.cells j).P/(t.base.cells j).rho*waterRate t j (dpdt j) +
    ((t.heat j).source - H*t.base.source j)

end

end TDy.Mpfao.Spec
