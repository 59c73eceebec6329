import Verif.Model.Lifecycle
import Verif.Model.Slots
import Mathlib.Data.Real.Basic

/-!
# Model of the driver's initialisation (src/tdydriver.c) and of the initial solution

`defaults k` is the callback triple installed by `MaterialPropSetConstant…` for the option value
of quantity `k`; `files k` the one installed by `TDyIOReadPorosity`/`TDyIOReadPermeability` when a
file name was given.  `TDySetup` and everything PETSc does may fail: `setupOk`.
-/

namespace TDy.Driver

open TDy.Slots

/-- include/tdyti.h: `TDyTimeIntegrationMethod`. -/
inductive Method where
  | snes | ts
  deriving DecidableEq, Repr

structure Env where
  disc : Disc
  mode : Mode
  method : Method
  defaults : MatKey → SetCall MatKey
  /-- src/tdydriver.c:39-41, 49-51: a file name was given for this quantity -/
  files : MatKey → Option (SetCall MatKey)
  setupOk : Bool

/-- one setter call -/
def apply (s : Store MatKey) (k : MatKey) (c : SetCall MatKey) : Store MatKey :=
  set s k c.context c.fn c.dtor

/-- src/tdydriver.c:38-46 and 48-57: porosity and permeability. -/
def fromFileOrDefault (e : Env) (k : MatKey) (s : Store MatKey) : Store MatKey :=
  if has s k then s
  else match e.files k with
    | none => apply s k (e.defaults k)
    | some c => apply s k c

/-- src/tdydriver.c:59-63, 67-80, 84-87: a default if the quantity is absent. -/
def orDefault (e : Env) (k : MatKey) (s : Store MatKey) : Store MatKey :=
  if has s k then s else apply s k (e.defaults k)

/-- src/tdydriver.c:65-88: the quantities that depend on the mode. -/
def modeProperties (e : Env) (s : Store MatKey) : Store MatKey :=
  match e.mode with
  | .richards => s
  | .th =>
    orDefault e .soilSpecificHeat (orDefault e .soilDensity (orDefault e .thermalConductivity s))
  | .salinity =>
    orDefault e .salineDiffusivity
      (apply s .salineMolecularWeight (e.defaults .salineMolecularWeight))

/-- src/tdydriver.c:37-88 -/
def properties (e : Env) (s : Store MatKey) : Store MatKey :=
  modeProperties e
    (orDefault e .residualSaturation
      (fromFileOrDefault e .permeability (fromFileOrDefault e .porosity s)))

/-- src/tdydriver.c:106-133: modes an integrator does not support. -/
def methodSupports : Method → Mode → Bool
  | .snes, .th => false
  | .ts, .salinity => false
  | _, _ => true

/-- src/tdydriver.c:10-233, `TDyDriverInitializeTDy`, its effect on the material properties. -/
def initTDy (e : Env) (s : Store MatKey) : Res (Store MatKey) :=
  if e.disc = .wy then .err s
  else if !e.setupOk then .err (properties e s)
  else if methodSupports e.method e.mode then .ok (properties e s)
  else .err (properties e s)

/-! ## The initial solution -/

noncomputable section

/-- The vectors `tdy->soln` and `tdy->soln_prev`, entry by entry. -/
structure Vecs where
  soln : Nat → ℝ
  prev : Nat → ℝ

/-- What the options and files provide. `draw lo hi k` is the `k`-th random vector drawn with the
interval `[lo, hi]`. -/
structure IcEnv where
  mode : Mode
  method : Method
  random : Bool
  draw : ℝ → ℝ → Nat → Nat → ℝ
  /-- `-tdy_init_file` -/
  initFile : Option (Nat → ℝ)
  /-- `-tdy_read_ic…` (src/tdyio.c), a vector in global order -/
  ic : Option (Nat → ℝ)

/-- src/tdyrichards.c:5-29 -/
def richardsInitialize (e : IcEnv) (v : Vecs) : Vecs :=
  if e.random then { v with soln := e.draw 1e4 1e6 0 }
  else match e.initFile with
    | some f => { soln := f, prev := f }
    | none => { v with soln := fun _ => 101325 }

/-- src/tdyth.c:5-46: even entries are pressures, odd entries temperatures. -/
def thInitialize (e : IcEnv) (v : Vecs) : Vecs :=
  if e.random then
    { v with soln := fun i => if i % 2 = 0 then e.draw 1e4 1e5 0 i else e.draw 15 35 1 i }
  else { v with soln := fun _ => 101325 }

/-- src/tdysalinity.c:4-42: even entries are pressures, odd entries concentrations. -/
def salinityInitialize (e : IcEnv) (v : Vecs) : Vecs :=
  if e.random then
    { v with soln := fun i => if i % 2 = 0 then e.draw 1e4 1e5 0 i else e.draw 0.1 0.8 1 i }
  else { v with soln := fun _ => 101325 }

/-- src/tdydriver.c:166-229: mode-specific initial solution, then the initial condition file, then
the previous solution for SNES. -/
def initialSolution (e : IcEnv) (v : Vecs) : Vecs :=
  let v := match e.mode with
    | .richards => richardsInitialize e v
    | .th => thInitialize e v
    | .salinity => salinityInitialize e v
  let v := match e.ic with
    | some f => { soln := f, prev := f }
    | none => v
  match e.method with
  | .snes => { v with prev := v.soln }
  | .ts => v

end

end TDy.Driver
