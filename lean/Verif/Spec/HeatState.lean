import Verif.Model.HeatState
import Verif.Spec.MpfaoCoupled

/-! # Vocabulary for heat that is carried by water -/

namespace TDy.Mpfao.Spec

open TDy TDy.Mpfao

noncomputable section

/-- Boundary sides of subfaces are boundary faces of the mesh. -/
structure BoundaryOk (c : Ctx) : Prop where
  up : ∀ v i, IsSubface c v i → (faceOf c v i).up < 0 → (-(faceOf c v i).up - 1).toNat < c.numBnd
  dn : ∀ v i, IsSubface c v i → (faceOf c v i).dn < 0 → (-(faceOf c v i).dn - 1).toNat < c.numBnd

/-- All water, in the cells and outside of the boundary, has the enthalpy `H` whatever its temperature. -/
structure OneEnthalpy (t : Th) (H : ℝ) : Prop where
  cell : ∀ j < t.base.numCells, (t.heat j).h = H
  energy : ∀ j < t.base.numCells, (t.heat j).u = H - (t.base.cells j).P/(t.base.cells j).rho
  slopes : ∀ j < t.base.numCells, (t.heat j).dudP = 0 ∧ (t.heat j).dudT = 0 ∧ (t.heat j).dSdT = 0 ∧
    (t.heat j).drhodT = 0
  bnd : ∀ b < t.base.numBnd, t.hBnd b = H

/-- Heat that leaves cell `j` by conduction. -/
def conductedOut (t : Th) (j : Nat) : ℝ := cellOutflow t.base (fun v i => -thTempTP t v i) j

/-- Water that leaves cell `j`. -/
def waterOut (t : Th) (j : Nat) : ℝ := cellOutflow t.base (thFluxm t) j

/-- The rate of change of the water of cell `j` per volume at the pressure rate `p'`. -/
def waterRate (t : Th) (j : Nat) (p' : ℝ) : ℝ :=
  ((t.base.cells j).drho*t.base.por j*(t.base.cells j).S +
    (t.base.cells j).rho*t.base.por j*(t.base.cells j).dSdP)*p'

/-- Cell `j` neither gains nor loses water: what flows in flows out, and it has no source. -/
def SteadyWater (t : Th) (j : Nat) : Prop := waterOut t j = 0 ∧ t.base.source j = 0

/-- Same mesh, material, temperatures and heat sources; pressures, saturations and water properties,
in the cells and on the boundary, may differ. -/
structure SameHeat (t t' : Th) : Prop where
  numVertices : t.base.numVertices = t'.base.numVertices
  numCells : t.base.numCells = t'.base.numCells
  numBnd : t.base.numBnd = t'.base.numBnd
  vert : t.base.vert = t'.base.vert
  face : t.base.face = t'.base.face
  por : t.base.por = t'.base.por
  vol : t.base.vol = t'.base.vol
  eps : t.eps = t'.eps
  tempT : t.tempT = t'.tempT
  tempM : t.tempM = t'.tempM
  tBnd : t.tBnd = t'.tBnd
  T : ∀ j, (t.heat j).T = (t'.heat j).T
  rock : ∀ j, (t.heat j).rock = (t'.heat j).rock
  source : ∀ j, (t.heat j).source = (t'.heat j).source

end

end TDy.Mpfao.Spec
