import Mathlib.Analysis.SpecialFunctions.Exp
import Mathlib.Analysis.SpecialFunctions.Pow.Real

/-!
# Specification: the published brine correlations

M. Batzle and Z. Wang, "Seismic properties of pore fluids", Geophysics 57 (1992), equations
(27a), (27b) and (32): densities in g/cm3 and viscosity in cP for pressure `p` in MPa,
temperature `T` in degrees Celsius and salinity `S` as a weight fraction.
-/

namespace TDy.Eos.Spec

noncomputable section

/-- (27a): density of water. -/
def rhoWater (p T : ℝ) : ℝ :=
  1 + 1e-6*(-80*T - 3.3*T^2 + 0.00175*T^3 + 489*p - 2*T*p + 0.016*T^2*p - 1.3e-5*T^3*p
    - 0.333*p^2 - 0.002*T*p^2)

/-- (27b): density of brine. -/
def rhoBrine (p T S : ℝ) : ℝ :=
  rhoWater p T + S*(0.668 + 0.44*S + 1e-6*(300*p - 2400*p*S + T*(80 + 3*T - 3300*S - 13*p
    + 47*p*S)))

/-- (32): viscosity of brine. -/
def etaBrine (T S : ℝ) : ℝ :=
  0.1 + 0.333*S + (1.65 + 91.9*S^3)
    *Real.exp (-(0.42*(S ^ (0.8:ℝ) - 0.17)^2 + 0.045)*T ^ (0.8:ℝ))

end

end TDy.Eos.Spec
