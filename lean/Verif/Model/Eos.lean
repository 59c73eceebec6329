import Mathlib.Analysis.SpecialFunctions.Exp
import Mathlib.Analysis.SpecialFunctions.Pow.Real

/-! # Model of the equations of state (src/materials/tdyeos.c) -/

namespace TDy.Eos

noncomputable section

/-- What the density and viscosity functions write; `none` is an output left untouched. -/
structure Out where
  v : ℝ
  dv : Option ℝ
  d2v : Option ℝ

/-- src/materials/tdyeos.c:5-14, `ComputeWaterDensity_Constant`. -/
def densityConstant (_p : ℝ) : Out := { v := 998.0, dv := some 0.0, d2v := some 0.0 }

/-- src/materials/tdyeos.c:17-37, `ComputeWaterDensity_Exponential`. -/
def densityExponential (p : ℝ) : Out :=
  let ReferenceDensity : ℝ := 997.16
  let ReferencePressure : ℝ := 101325
  let WaterCompressibility : ℝ := 1e-8
  if p < ReferencePressure then { v := ReferenceDensity, dv := some 0.0, d2v := some 0.0 }
  else
    let den := ReferenceDensity*Real.exp (WaterCompressibility*(p - ReferencePressure))
    let dden := WaterCompressibility*den
    { v := den, dv := some dden, d2v := some (WaterCompressibility*dden) }

/-- src/materials/tdyeos.c:40-57, `ComputeWaterDensity_BatzleWang`: the derivative outputs are
not written. -/
def densityBatzleWang (P T S : ℝ) : Out :=
  let M : ℝ := 1e-6
  let pw := (1 + 1e-6*(-80*T - 3.3*T^2 + 0.00175*T^3 + 489*P*M - 2*T*P*M + 0.016*P*M*T^2
    - 1.3e-5*T^3*P*M - 0.333*(P*M)^2 - 0.002*T*(P*M)^2))*1000
  { v := pw + S*(0.668 + 0.44*S + 1e-6*(300*P*M - 2400*P*M*S + T*(80*3*T - 3300*S
      - 13*P*M + 47*P*M*S)))*1000
    dv := none, d2v := none }

/-- include/tdycore.h `TDyWaterDensityType`; `other` is any other integer value. -/
inductive DensityType where
  | constant | exponential | batzleWang | other

/-- src/materials/tdyeos.c:60-85, `EOSComputeWaterDensity`; `none` is a reported error. -/
def waterDensity (ty : DensityType) (p T S : ℝ) : Option Out :=
  match ty with
  | .constant => some (densityConstant p)
  | .exponential => some (densityExponential p)
  | .batzleWang => some (densityBatzleWang p T S)
  | .other => none

/-- src/materials/tdyeos.c:87-99, `ComputeWaterViscosity_Constant`. -/
def viscosityConstant (_p : ℝ) : Out := { v := 9.94e-4, dv := some 0.0, d2v := some 0.0 }

/-- src/materials/tdyeos.c:101-112, `ComputeWaterViscosity_BatzleWang`. -/
def viscosityBatzleWang (T S : ℝ) : Out :=
  { v := (0.1 + 0.333*S + (1.65 + 91.9*S^3)
      *Real.exp ((-0.42*(S ^ (0.8:ℝ) - 0.17)^2 + 0.045)*T ^ (0.8:ℝ)))*1e-3
    dv := none, d2v := none }

/-- src/materials/tdyeos.c:173-182, `EOSComputeSalinityFraction`. -/
def salinityFraction (Psi mw : ℝ) : ℝ := (Psi*mw)/((Psi*mw) + 999)

end

end TDy.Eos
