import Verif.Basic

/-!
# Model of the life cycle of a dycore object (src/tdycore.c)

The object is the `TDy` struct.  Kept: the setup flags, the options, the table of installed
operations, the implementation context (by the family of the constructor that made it), and
whether the DM, conditions, material properties, curves, diagnostics and solution vectors exist.

Environment: whether a PETSc call or a file read fails is decided by the environment, not by the
code; it is an argument of the call (`OptEnv`, `SetupEnv`), so that every theorem quantifies
over it.
-/

namespace TDy

/-- include/tdycore.h:13-20, `TDyMode`. -/
inductive Mode where
  | richards | th | salinity
  deriving DecidableEq, Repr

/-- include/tdycore.h:24-39, `TDyDiscretization`. -/
inductive Disc where
  | mpfaO | mpfaODae | mpfaOTransientVar | bdm | wy | fvTpf
  deriving DecidableEq, Repr

/-- Which family of source files an installed operation comes from:
src/fv/mpfao, src/fe/tdybdm.c, src/fe/tdywy.c, src/fv/fvtpf.  A context made by the constructor
of one family can only be used by the operations of that family, because each casts the
`void*` context to its own struct. -/
inductive Family where
  | mpfao | bdm | wy | fvtpf
  deriving DecidableEq, Repr

/-- The governing equations an installed operation is written for (the middle word in names
such as `TDySetup_TH_MPFAO`; `richardsDae` is the suffix `_DAE`). -/
inductive Variant where
  | richards | richardsDae | th | salinity
  deriving DecidableEq, Repr

/-- The C function stored in a slot of the operation table, by family and variant. -/
structure Fn where
  fam : Family
  var : Variant
  deriving DecidableEq, Repr

/-- include/private/tdycoreimpl.h, `struct _TDyOps`: the function pointers written by
`TDySetDiscretization` (`none` is the NULL pointer left by `PetscHeaderCreate`). -/
structure Ops where
  create : Option Family := none
  destroy : Option Family := none
  setFromOptions : Option Family := none
  setDmFields : Option Fn := none
  getNumDmFields : Option Fn := none
  setup : Option Fn := none
  updateState : Option Fn := none
  updateDiagnostics : Option Family := none
  deriving DecidableEq, Repr

/-- include/tdycore.h:100-104, `TDyWaterDensityType`. -/
inductive RhoType where
  | constant | exponential | batzleAndWang
  deriving DecidableEq, Repr

/-- include/tdycore.h:108-111, `TDyWaterViscosityType`. -/
inductive MuType where
  | constant | batzleAndWang
  deriving DecidableEq, Repr

/-- include/private/tdyoptions.h, `TDyOptions`.  Real-valued settings are only copied by the
code modelled here, so they are rationals (which include every PetscReal).  Not kept: the file
name buffers and the Mualem polynomial settings (no code reads them from the command line). -/
structure Options where
  mode : Mode
  disc : Disc
  gravity : Rat
  rhoType : RhoType
  muType : MuType
  porosity : Rat
  permeability : Rat
  soilDensity : Rat
  soilSpecificHeat : Rat
  thermalConductivity : Rat
  salineMolecularWeight : Rat
  salineDiffusivity : Rat
  residualSaturation : Rat
  gardnerN : Rat
  vangenuchtenM : Rat
  vangenuchtenAlpha : Rat
  boundaryPressure : Rat
  boundaryTemperature : Rat
  boundaryVelocity : Rat
  initWithRandomField : Bool
  initFromFile : Bool
  readMesh : Bool
  readPflotranMesh : Bool
  outputMesh : Bool
  regressionTesting : Bool
  deriving DecidableEq, Repr

/-- src/tdycore.c:260-295, `SetDefaultOptions`. -/
def defaultOptions : Options where
  mode := .richards
  disc := .mpfaO
  gravity := 98068 / 10000
  rhoType := .constant
  muType := .constant
  porosity := 1 / 4
  permeability := 1 / 1000000000000
  soilDensity := 2650
  soilSpecificHeat := 1000
  thermalConductivity := 1
  salineMolecularWeight := 5844 / 100
  salineDiffusivity := 1 / 1000000
  residualSaturation := 15 / 100
  gardnerN := 1 / 2
  vangenuchtenM := 8 / 10
  vangenuchtenAlpha := 1 / 10000
  boundaryPressure := 0
  boundaryTemperature := 273
  boundaryVelocity := 0
  initWithRandomField := false
  initFromFile := false
  readMesh := false
  readPflotranMesh := false
  outputMesh := false
  regressionTesting := false

/-- The setup flags (include/tdycore.h:61-68); `TDyCreated` and `TDyParametersInitialized`
are always set on an object returned by `TDyCreate` and are dropped. -/
structure Flags where
  modeSet : Bool := false
  discSet : Bool := false
  optionsSet : Bool := false
  setupFinished : Bool := false
  deriving DecidableEq, Repr

/-- How the DM came to be (src/tdycore.c:656-694). -/
inductive DmSource where
  | pflotran | meshFile | userFn (id : Nat) | fortranFn | default
  deriving DecidableEq, Repr

/-- The `TDy` struct, as far as the life cycle is concerned. -/
structure State where
  flags : Flags := {}
  opts : Options := defaultOptions
  ops : Ops := {}
  /-- `tdy->context`: the family whose constructor allocated it. -/
  context : Option Family := none
  /-- `tdy->ops->create_dm` : the user's DM constructor. -/
  createDm : Option Nat := none
  dm : Option DmSource := none
  conditions : Bool := false
  matprop : Bool := false
  curves : Bool := false
  /-- `tdy->eos` density type, copied from the options by `TDySetup`. -/
  eosRho : RhoType := .constant
  eosMu : MuType := .constant
  /-- `tdy->diag_vec` has been created. -/
  diag : Bool := false
  /-- the number of `diag_dm`/`diag_vec` pairs overwritten without being destroyed -/
  lostDiag : Nat := 0
  /-- the number of implementation contexts overwritten without being destroyed -/
  lostContext : Nat := 0
  /-- `tdy->soln` and `tdy->soln_prev` have been created -/
  vectors : Bool := false
  deriving DecidableEq, Repr

/-- src/tdycore.c:298-327, `TDyCreate` (PETSc's header creation zeroes the struct). -/
def State.create : State := {}

/-- The table written by src/tdycore.c:845-932 for a (mode, discretization) pair, given the
table before; `none` when the code raises PETSC_ERR_USER.  Slots the code does not assign keep
their old value, as for `get_num_dm_fields` in the TH branch. -/
def installOps (old : Ops) : Mode → Disc → Option Ops
  | .richards, .mpfaO => some
      { create := some .mpfao, destroy := some .mpfao, setFromOptions := some .mpfao,
        setDmFields := some ⟨.mpfao, .richards⟩, getNumDmFields := some ⟨.mpfao, .richards⟩,
        setup := some ⟨.mpfao, .richards⟩, updateState := some ⟨.mpfao, .richards⟩,
        updateDiagnostics := some .mpfao }
  | .richards, .mpfaODae => some
      { create := some .mpfao, destroy := some .mpfao, setFromOptions := some .mpfao,
        setDmFields := some ⟨.mpfao, .richardsDae⟩,
        getNumDmFields := some ⟨.mpfao, .richardsDae⟩,
        setup := some ⟨.mpfao, .richardsDae⟩, updateState := some ⟨.mpfao, .richards⟩,
        updateDiagnostics := some .mpfao }
  | .richards, .mpfaOTransientVar => some
      { create := some .mpfao, destroy := some .mpfao, setFromOptions := some .mpfao,
        setDmFields := some ⟨.mpfao, .richards⟩, getNumDmFields := some ⟨.mpfao, .richards⟩,
        setup := some ⟨.mpfao, .richards⟩, updateState := some ⟨.mpfao, .richards⟩,
        updateDiagnostics := some .mpfao }
  | .richards, .bdm => some
      { create := some .bdm, destroy := some .bdm, setFromOptions := some .bdm,
        setDmFields := some ⟨.bdm, .richards⟩, getNumDmFields := some ⟨.bdm, .richards⟩,
        setup := some ⟨.bdm, .richards⟩, updateState := none, updateDiagnostics := none }
  | .richards, .wy => some
      { create := some .wy, destroy := some .wy, setFromOptions := some .wy,
        setDmFields := some ⟨.wy, .richards⟩, getNumDmFields := some ⟨.bdm, .richards⟩,
        setup := some ⟨.wy, .richards⟩, updateState := some ⟨.wy, .richards⟩,
        updateDiagnostics := none }
  | .richards, .fvTpf => some
      { create := some .fvtpf, destroy := some .fvtpf, setFromOptions := some .fvtpf,
        setDmFields := some ⟨.fvtpf, .richards⟩, getNumDmFields := some ⟨.fvtpf, .richards⟩,
        setup := some ⟨.fvtpf, .richards⟩, updateState := some ⟨.fvtpf, .richards⟩,
        updateDiagnostics := some .fvtpf }
  | .th, .mpfaO => some
      { old with
        create := some .mpfao, destroy := some .mpfao, setFromOptions := some .mpfao,
        setDmFields := some ⟨.mpfao, .th⟩,
        setup := some ⟨.mpfao, .th⟩, updateState := some ⟨.mpfao, .th⟩,
        updateDiagnostics := some .mpfao }
  | .th, _ => none
  | .salinity, .mpfaO => some
      { create := some .mpfao, destroy := some .mpfao, setFromOptions := some .mpfao,
        setDmFields := some ⟨.mpfao, .salinity⟩, getNumDmFields := some ⟨.mpfao, .salinity⟩,
        setup := some ⟨.mpfao, .salinity⟩, updateState := some ⟨.mpfao, .salinity⟩,
        updateDiagnostics := some .mpfao }
  | .salinity, _ => none

/-- src/tdycore.c:832-936, `TDySetDiscretization`. -/
def setDisc (s : State) (d : Disc) : Res State :=
  if s.flags.modeSet = false then .err s
  else
    match installOps s.ops s.opts.mode d with
    | none => .err s
    | some ops =>
      .ok { s with ops := ops, opts := { s.opts with disc := d },
                   flags := { s.flags with discSet := true } }

/-- src/tdycore.c:813-826, `TDySetMode`. -/
def setMode (s : State) (m : Mode) : Res State :=
  let s1 := { s with opts := { s.opts with mode := m },
                     flags := { s.flags with modeSet := true } }
  if s1.flags.discSet then setDisc s1 s1.opts.disc else .ok s1

/-- src/tdycore.c:340-356, `TDySetDMConstructor`. -/
def setDMConstructor (s : State) (id : Nat) : Res State :=
  if s.flags.discSet = false then .err s
  else if s.flags.optionsSet then .err s
  else .ok { s with createDm := some id }

/-- The real-valued command line options read by `ReadCommandLineOptions`, named by what they
are documented to set (src/tdycore.c:528-546, 559, 570, 581). -/
inductive RealKey where
  | porosity | permeability | soilDensity | soilSpecificHeat | thermalConductivity
  | residualSaturation | gardnerN | vangenuchtenM | vangenuchtenAlpha | gravity
  deriving DecidableEq, Repr

/-- The command line: the value given for each option, if it was given. -/
structure CmdLine where
  real : RealKey → Option Rat := fun _ => none
  mode : Option Mode := none
  disc : Option Disc := none
  rhoType : Option RhoType := none
  muType : Option MuType := none
  pressureFn : Bool := false
  pressureValue : Option Rat := none
  velocityFn : Bool := false
  velocityValue : Option Rat := none
  temperatureFn : Bool := false
  temperatureValue : Option Rat := none
  initRandom : Option Bool := none
  initFile : Bool := false
  readMesh : Bool := false
  readPflotranMesh : Bool := false
  outputMesh : Option Bool := none
  regression : Option Bool := none

/-- src/tdycore.c:527-549 and 555-586, the value-setting part of `ReadCommandLineOptions`.
`PetscOptionsReal` writes its target only when the option is present; line 532 names the
porosity as the target of `-tdy_thermal_conductivity`.  Boundary values are read only when no
boundary function is named for the same quantity.  Failures of the named-function lookup are
environment failures. -/
def readValues (o : Options) (c : CmdLine) : Options :=
  let o := { o with porosity := (c.real .porosity).getD o.porosity }
  let o := { o with permeability := (c.real .permeability).getD o.permeability }
  let o := { o with soilDensity := (c.real .soilDensity).getD o.soilDensity }
  let o := { o with soilSpecificHeat := (c.real .soilSpecificHeat).getD o.soilSpecificHeat }
  let o := { o with porosity := (c.real .thermalConductivity).getD o.porosity }
  let o := { o with residualSaturation := (c.real .residualSaturation).getD o.residualSaturation }
  let o := { o with gardnerN := (c.real .gardnerN).getD o.gardnerN }
  let o := { o with vangenuchtenM := (c.real .vangenuchtenM).getD o.vangenuchtenM }
  let o := { o with vangenuchtenAlpha := (c.real .vangenuchtenAlpha).getD o.vangenuchtenAlpha }
  let o := { o with gravity := (c.real .gravity).getD o.gravity }
  let o := { o with rhoType := c.rhoType.getD o.rhoType }
  let o := { o with muType := c.muType.getD o.muType }
  { o with
    boundaryPressure :=
      if c.pressureFn then o.boundaryPressure else c.pressureValue.getD o.boundaryPressure
    boundaryVelocity :=
      if c.velocityFn then o.boundaryVelocity else c.velocityValue.getD o.boundaryVelocity
    boundaryTemperature :=
      if c.temperatureFn then o.boundaryTemperature
      else c.temperatureValue.getD o.boundaryTemperature }

/-- src/tdycore.c:504-621, `ReadCommandLineOptions`.  Lines 595-600 drop the return codes of
`TDySetMode` and `TDySetDiscretization`. -/
def readCommandLine (s : State) (c : CmdLine) : Res State :=
  if s.flags.setupFinished then .err s
  else
    let mode := c.mode.getD s.opts.mode
    let disc := c.disc.getD s.opts.disc
    let s := { s with opts := readValues s.opts c, conditions := true }
    (if s.opts.mode ≠ mode then setMode s mode else .ok s).bindIgnore fun s =>
    (if s.opts.disc ≠ disc then setDisc s disc else .ok s).bindIgnore fun s =>
    let s := { s with opts := { s.opts with
                initWithRandomField := c.initRandom.getD s.opts.initWithRandomField
                initFromFile := c.initFile } }
    if s.opts.initFromFile && s.opts.initWithRandomField then .err s
    else
      .ok { s with opts := { s.opts with
              readMesh := c.readMesh
              readPflotranMesh := c.readPflotranMesh
              outputMesh := c.outputMesh.getD s.opts.outputMesh
              regressionTesting := c.regression.getD s.opts.regressionTesting } }

/-- What the environment does during `TDySetFromOptions`: nothing goes wrong, a call fails
before the options flag is set (reading options, creating the context), or a call fails after
it (reading the mesh file, creating or distributing the DM).  `fortran` says whether a Fortran
DM constructor is registered (src/tdycore.c:360-366). -/
structure OptEnv where
  failBeforeFlag : Bool := false
  failAfterFlag : Bool := false
  fortran : Bool := false

/-- src/tdycore.c:656-705: the choice of the DM, in the order in which the code decides. -/
def chooseDm (s : State) (e : OptEnv) : Res State :=
  if s.opts.readPflotranMesh then
    match s.ops.getNumDmFields with
    | none => .ub
    | some _ => if e.failAfterFlag then .err s else .ok { s with dm := some .pflotran }
  else if s.dm.isSome then .ok s
  else
    let src : DmSource :=
      if s.opts.readMesh then .meshFile
      else match s.createDm with
        | some id => .userFn id
        | none => if e.fortran then .fortranFn else .default
    if e.failAfterFlag then .err s
    else
      match s.ops.setDmFields with
      | none => .ub
      | some _ => .ok { s with dm := some src }

/-- src/tdycore.c:627-717, `TDySetFromOptions`. -/
def setFromOptions (s : State) (c : CmdLine) (e : OptEnv) : Res State :=
  if s.flags.setupFinished then .err s
  else
    (readCommandLine s c).bind fun s =>
    match s.ops.create with
    | none => .ub
    | some fam =>
      if e.failBeforeFlag then .err s
      else
        let s := { s with
          context := some fam
          lostContext := s.lostContext + (if s.context.isSome then 1 else 0)
          flags := { s.flags with optionsSet := true } }
        (chooseDm s e).bind fun s => .ok { s with matprop := true, curves := true }

/-- What the environment does during `TDySetup`. -/
structure SetupEnv where
  fail : Bool := false

/-- src/tdycore.c:755-788, the diagnostics part of `TDySetup`: meshes read in PFLOTRAN format
have no diagnostics, otherwise the diagnostic DM and vector are created (over whatever was
stored there before). -/
def setupDiagnostics (s : State) : State :=
  let upd := if s.dm = some .pflotran then none else s.ops.updateDiagnostics
  { s with
    ops := { s.ops with updateDiagnostics := upd }
    diag := s.diag || upd.isSome
    lostDiag := s.lostDiag + (if upd.isSome && s.diag then 1 else 0) }

/-- src/tdycore.c:724-808, `TDySetup`.  The implementation's setup function dereferences the
context as the struct of its own family and uses the DM, the material properties, the curves
and the conditions, so a missing or foreign one is undefined behaviour. -/
def setup (s : State) (e : SetupEnv) : Res State :=
  if s.flags.discSet = false then .err s
  else if s.flags.optionsSet = false then .err s
  else
    let s := { s with eosRho := s.opts.rhoType, eosMu := s.opts.muType }
    match s.ops.setup with
    | none => .ub
    | some fn =>
      if s.context ≠ some fn.fam then .ub
      else if s.dm = none ∨ s.matprop = false ∨ s.curves = false ∨ s.conditions = false then .ub
      else if e.fail then .err s
      else
        let s := setupDiagnostics s
        if s.opts.outputMesh && s.opts.disc ≠ .mpfaO then .err s
        else .ok { s with flags := { s.flags with setupFinished := true } }

/-- src/tdycore.c:1663-1681, `TDyUpdateDiagnostics`. -/
def updateDiagnostics (s : State) : Res State :=
  if s.flags.setupFinished = false then .err s
  else
    match s.ops.updateDiagnostics with
    | none => .err s
    | some fam =>
      if s.context ≠ some fam ∨ s.diag = false then .ub else .ok s

/-- src/tdycore.c:1687-1707, `TDyCreateDiagnosticVector`. -/
def createDiagnosticVector (s : State) : Res State :=
  if s.flags.setupFinished = false then .err s
  else
    match s.ops.updateDiagnostics with
    | none => .err s
    | some _ => if s.diag = false then .ub else .ok s

/-- src/tdycore.c:1731-1746, `TDyCreatePrognosticVector`. -/
def createPrognosticVector (s : State) : Res State :=
  if s.flags.setupFinished = false then .err s
  else if s.dm = none then .ub else .ok s

/-- src/tdycore.c:1771-1788, `TDyCreateMatrix`. -/
def createMatrix (s : State) : Res State :=
  if s.flags.setupFinished = false then .err s
  else if s.dm = none then .ub else .ok s

/-- src/tdycore.c:1748-1766 and 1795-1807, `TDyGetLiquidSaturation` (likewise
`TDyGetLiquidMass`, 1814-1825): create a diagnostic vector, then extract the field. -/
def getLiquidSaturation (s : State) : Res State :=
  (createDiagnosticVector s).bind fun s =>
  if s.flags.setupFinished = false then .err s
  else
    match s.ops.updateDiagnostics with
    | none => .err s
    | some _ => if s.diag = false then .ub else .ok s

/-- src/tdycore.c:1827-1862, `TDyGetLiquidPressure`: the temporary is created from the DM
before the setup flag is tested, and the values are read from `soln_prev`. -/
def getLiquidPressure (s : State) : Res State :=
  if s.dm = none then .ub
  else if s.flags.setupFinished = false then .err s
  else if s.vectors = false then .ub else .ok s

/-- src/tdycore.c:2166-2182, `TDyCreateVectors`. -/
def createVectors (s : State) : Res State :=
  if s.vectors then .ok s
  else if s.dm = none then .ub else .ok { s with vectors := true }

/-- src/tdycore.c:1625-1632, `TDySetInitialCondition`: scatters into the solution vectors
without testing the setup flags. -/
def setInitialCondition (s : State) : Res State :=
  if s.vectors = false then .ub else .ok s

/-- src/tdycore.c:938-943, `TDySetWaterDensityType` (no check of the setup flags). -/
def setWaterDensityType (s : State) (t : RhoType) : Res State :=
  .ok { s with opts := { s.opts with rhoType := t } }

/-- The public calls on a live object. -/
inductive Call where
  | setMode (m : Mode)
  | setDisc (d : Disc)
  | setDMConstructor (id : Nat)
  | setWaterDensityType (t : RhoType)
  | setFromOptions (c : CmdLine) (e : OptEnv)
  | setup (e : SetupEnv)
  | createVectors
  | setInitialCondition
  | updateDiagnostics
  | createDiagnosticVector
  | createPrognosticVector
  | createMatrix
  | getLiquidSaturation
  | getLiquidPressure

/-- One public call. -/
def step (s : State) : Call → Res State
  | .setMode m => setMode s m
  | .setDisc d => setDisc s d
  | .setDMConstructor id => setDMConstructor s id
  | .setWaterDensityType t => setWaterDensityType s t
  | .setFromOptions c e => setFromOptions s c e
  | .setup e => setup s e
  | .createVectors => createVectors s
  | .setInitialCondition => setInitialCondition s
  | .updateDiagnostics => updateDiagnostics s
  | .createDiagnosticVector => createDiagnosticVector s
  | .createPrognosticVector => createPrognosticVector s
  | .createMatrix => createMatrix s
  | .getLiquidSaturation => getLiquidSaturation s
  | .getLiquidPressure => getLiquidPressure s

/-- `Reaches s h s'`: starting from `s`, the calls of `h` were made in that order, each with
the recorded status, none of them undefined, and the object is now in `s'`. -/
inductive Reaches : State → List (Call × Status) → State → Prop where
  | nil (s : State) : Reaches s [] s
  | ok {s s' s'' : State} {h : List (Call × Status)} (c : Call) :
      Reaches s h s' → step s' c = .ok s'' → Reaches s (h ++ [(c, .success)]) s''
  | err {s s' s'' : State} {h : List (Call × Status)} (c : Call) :
      Reaches s h s' → step s' c = .err s'' → Reaches s (h ++ [(c, .failure)]) s''

/-- src/tdycore.c:368-420, `TDyDestroy` on a live object: the implementation destructor
(src/fv/mpfao/tdympfao.c:449, src/fv/fvtpf/tdyfvtpf.c:32, src/fe/tdybdm.c, src/fe/tdywy.c)
dereferences the context without testing it for NULL. Returns whether the call is defined. -/
def destroyDefined (s : State) : Bool :=
  match s.ops.destroy with
  | none => true
  | some fam => s.context == some fam

end TDy
