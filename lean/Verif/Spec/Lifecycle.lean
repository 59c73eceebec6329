import Verif.Model.Lifecycle

/-!
# What the life-cycle properties mean

Everything here is about the *history* of public calls and about tables written down from the
documentation; none of it mentions the setup flags or how the object stores anything.
-/

namespace TDy.Spec

/-- A call history: each public call made so far with how it ended. -/
abbrev History := List (Call × Status)

/-- `TDySetFromOptions` has returned successfully. -/
def OptionsSucceeded (h : History) : Prop :=
  ∃ c e, (Call.setFromOptions c e, Status.success) ∈ h

/-- A discretization has been chosen: either by a successful `TDySetDiscretization`, or on the
command line read by some `TDySetFromOptions`. -/
def DiscretizationChosen (h : History) : Prop :=
  (∃ d, (Call.setDisc d, Status.success) ∈ h) ∨
  (∃ c e st d, (Call.setFromOptions c e, st) ∈ h ∧ c.disc = some d)

/-- `TDySetup` has returned successfully. -/
def SetupSucceeded (h : History) : Prop :=
  ∃ e, (Call.setup e, Status.success) ∈ h

/-- Calls documented as "must be called after TDySetup". -/
def NeedsSetup : Call → Prop
  | .updateDiagnostics | .createDiagnosticVector | .createPrognosticVector
  | .createMatrix | .getLiquidSaturation | .getLiquidPressure => True
  | _ => False

/-- The (mode, discretization) pairs the library supports, with the family and variant of the
implementation that belongs to each: Richards works with everything; TH and SALINITY only with
MPFA-O. -/
def solver : Mode → Disc → Option Fn
  | .richards, .mpfaO => some ⟨.mpfao, .richards⟩
  | .richards, .mpfaODae => some ⟨.mpfao, .richardsDae⟩
  | .richards, .mpfaOTransientVar => some ⟨.mpfao, .richards⟩
  | .richards, .bdm => some ⟨.bdm, .richards⟩
  | .richards, .wy => some ⟨.wy, .richards⟩
  | .richards, .fvTpf => some ⟨.fvtpf, .richards⟩
  | .th, .mpfaO => some ⟨.mpfao, .th⟩
  | .salinity, .mpfaO => some ⟨.mpfao, .salinity⟩
  | _, _ => none

def Supported (m : Mode) (d : Disc) : Prop := (solver m d).isSome

/-- The implementation installed in the object is the one belonging to the mode and
discretization the object reports. -/
def SolverMatches (s : State) : Prop :=
  ∃ f, solver s.opts.mode s.opts.disc = some f ∧
    s.ops.create = some f.fam ∧ s.ops.destroy = some f.fam ∧
    s.ops.setFromOptions = some f.fam ∧
    s.ops.setup = some f ∧ s.ops.setDmFields = some f ∧
    (∀ g, s.ops.updateState = some g → g.fam = f.fam) ∧
    (∀ g, s.ops.updateDiagnostics = some g → g = f.fam)

/-- The number of unknowns per cell that a routine counting DM fields reports, and the number
the implementation lays out. -/
def numFields : Variant → Nat
  | .richards => 1
  | .richardsDae => 2
  | .th => 2
  | .salinity => 2

/-- Calls documented as configuration, which a user would expect to be refused after setup. -/
def Reconfigures : Call → Prop
  | .setMode _ | .setDisc _ | .setWaterDensityType _ => True
  | _ => False

/-- The setting that each real-valued command line option is documented to set. -/
def setting (o : Options) : RealKey → Rat
  | .porosity => o.porosity
  | .permeability => o.permeability
  | .soilDensity => o.soilDensity
  | .soilSpecificHeat => o.soilSpecificHeat
  | .thermalConductivity => o.thermalConductivity
  | .residualSaturation => o.residualSaturation
  | .gardnerN => o.gardnerN
  | .vangenuchtenM => o.vangenuchtenM
  | .vangenuchtenAlpha => o.vangenuchtenAlpha
  | .gravity => o.gravity

end TDy.Spec
