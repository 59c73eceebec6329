import Verif.Model.Slots
import Verif.Model.Library

/-!
# Model of the functions a user hands to a dycore (src/tdycore.c:504-618, 701-710, 963-1456)

The setters of the public interface wrap what the user gives (a function or a constant) into a
block of memory obtained from `TDyAlloc` and hand the block to a setter of `Conditions` or
`MaterialProp` (modelled in `Verif.Model.Slots`), with `TDyFree` as the destructor.  The solver
later evaluates the quantity through the stored function pointer and block.

Kept: every block ever allocated (`blocks`; the address of a block is its position), which blocks
have been released (the log inside the two records), NULL records, unknown names.  Values are
rationals, which include every PetscReal.  Simplified: the values of the integer-valued boundary
type function are kept as rationals as well; allocation does not fail; TDySetFromOptions fails
for other reasons only as its argument says (`failsEarly`, `failsLate`).
-/

namespace TDy.Api

open TDy TDy.Slots

/-- src/tdycore.c:1292-1299 and src/materials/tdymaterialproperties.c:378-387, `WrapperStruct`, and
the single number allocated at src/tdyconditions.c:267-269: the function, and the nine values. -/
structure Block where
  func : Option Nat
  value : Nat → Rat

/-- The functions stored in the records by the code modelled here. -/
inductive Entry where
  /-- src/tdycore.c:1302-1306, `WrapperFunction` -/
  | wrapper
  /-- src/tdycore.c:1309-1313, `WrapperIntegerFunction` -/
  | wrapperInteger
  /-- src/tdyconditions.c:251-260, `ConstantBoundaryFn` -/
  | constantBoundary
  /-- src/materials/tdymaterialproperties.c:419-521, the eight wrapper functions -/
  | constantScalar | scalar | constantIsotropic | isotropic
  | constantDiagonal | diagonal | constantFull | full
  deriving DecidableEq, Repr

/-- The address of a stored function. -/
def Entry.code : Entry → Nat
  | .wrapper => 0 | .wrapperInteger => 1 | .constantBoundary => 2 | .constantScalar => 3
  | .scalar => 4 | .constantIsotropic => 5 | .isotropic => 6 | .constantDiagonal => 7
  | .diagonal => 8 | .constantFull => 9 | .full => 10

/-- The function at an address. -/
def Entry.ofCode : Nat → Option Entry
  | 0 => some .wrapper | 1 => some .wrapperInteger | 2 => some .constantBoundary
  | 3 => some .constantScalar | 4 => some .scalar | 5 => some .constantIsotropic
  | 6 => some .isotropic | 7 => some .constantDiagonal | 8 => some .diagonal
  | 9 => some .constantFull | 10 => some .full
  | _ => none

/-- The address of `TDyFree`. -/
def tdyFree : Nat := 0

/-- The parts of a dycore that matter here. -/
structure Dy where
  lib : Lib.Lib := {}
  blocks : List Block := []
  conditions : Option (Store CondKey) := none
  matprop : Option (Store MatKey) := none
  setupFinished : Bool := false

/-- The functions of the user: number of points, coordinates and previous contents of the output
give the contents after the call. -/
abbrev UserFns := Nat → Nat → (Nat → Rat) → (Nat → Rat) → (Nat → Rat)

/-- src/tdycore.c:1302-1313, src/tdyconditions.c:251-260,
src/materials/tdymaterialproperties.c:419-530: what the stored function does with its block.  `tmp`
is the previous contents of the uninitialised array `values`.  `none`: a call through a NULL
pointer. -/
def runEntry (U : UserFns) (tmp : Nat → Rat) (e : Entry) (b : Block) (n : Nat)
    (x v : Nat → Rat) : Option (Nat → Rat) :=
  match e with
  | .wrapper | .wrapperInteger | .scalar | .full =>
    match b.func with
    | some f => some (U f n x v)
    | none => none
  | .constantBoundary | .constantScalar => some (Slots.constantScalar (b.value 0) n v)
  | .constantIsotropic => some (Slots.constantIsotropic 3 b.value n v)
  | .isotropic =>
    match b.func with
    | some f => some (Slots.isotropic 3 (U f n x tmp) n v)
    | none => none
  | .constantDiagonal => some (Slots.constantDiagonal 3 b.value n v)
  | .diagonal =>
    match b.func with
    | some f => some (Slots.diagonal 3 (U f n x tmp) n v)
    | none => none
  | .constantFull => some (Slots.constantFull 3 b.value n v)

/-- Calling a stored function with a stored block; `none` is undefined behaviour: an unknown
function, a NULL block, a block that has been released. -/
def callStored {κ : Type} (U : UserFns) (tmp : Nat → Rat) (d : Dy) (s : Store κ) (fn : Nat)
    (context : Option Nat) (n : Nat) (x v : Nat → Rat) : Option (Nat → Rat) :=
  match Entry.ofCode fn, context with
  | some e, some c =>
    if (tdyFree, c) ∈ s.released then none
    else match d.blocks[c]? with
      | some b => runEntry U tmp e b n x v
      | none => none
  | _, _ => none

/-- src/tdyconditions.c:198-249: evaluation of a condition through `tdy->conditions`. -/
def evalCondition (U : UserFns) (tmp : Nat → Rat) (d : Dy) (k : CondKey) (n : Nat)
    (x v : Nat → Rat) : Option (Nat → Rat) :=
  match d.conditions with
  | none => none
  | some s =>
    match conditionsCompute s k with
    | .calls f c => callStored U tmp d s f c n x v
    | .nothing => some v
    | .ub => none

/-- src/materials/tdymaterialproperties.c:239-375: evaluation of a material property through
`tdy->matprop`. -/
def evalMaterial (U : UserFns) (tmp : Nat → Rat) (d : Dy) (k : MatKey) (n : Nat)
    (x v : Nat → Rat) : Option (Nat → Rat) :=
  match d.matprop with
  | none => none
  | some s =>
    match materialPropCompute s k with
    | .calls f c => callStored U tmp d s f c n x v
    | .nothing => some v
    | .ub => none

/-! ## Setters -/

/-- The condition setters of the public interface (src/tdycore.c:1315-1401); there is none for the
source of salinity. -/
inductive CondSetter where
  | forcing | energyForcing | boundaryPressure | boundaryPressureType | boundaryVelocity
  | boundaryTemperature | boundarySalineConcentration
  deriving DecidableEq, Repr

/-- src/tdycore.c:1322, 1334, 1346, 1358, 1370, 1382, 1394: the quantity each setter passes its
wrapper to. -/
def CondSetter.key : CondSetter → CondKey
  | .forcing => .forcing
  | .energyForcing => .energyForcing
  | .boundaryPressure => .boundaryPressure
  | .boundaryPressureType => .boundaryPressureType
  | .boundaryVelocity => .boundaryVelocity
  | .boundaryTemperature => .boundaryTemperature
  | .boundarySalineConcentration => .boundarySalineConc

/-- src/tdycore.c:1322-1395: the function each setter stores. -/
def CondSetter.entry : CondSetter → Entry
  | .boundaryPressureType => .wrapperInteger
  | _ => .wrapper

/-- `TDyAlloc`, filling the block, and a setter of `Conditions`, which dereferences its first
argument. -/
def storeCondition (d : Dy) (k : CondKey) (e : Entry) (b : Block) : Res Dy :=
  match d.conditions with
  | none => .ub
  | some s =>
    .ok { d with
      blocks := d.blocks ++ [b]
      conditions := some (set s k (some d.blocks.length) (some e.code) (some tdyFree)) }

/-- src/tdycore.c:1315-1401, `TDySetForcingFunction` to `TDySetBoundarySalineConcentrationFunction`.
The fresh block holds only the function (`TDyAlloc` zeroes). -/
def setCondition (d : Dy) (s : CondSetter) (f : Nat) : Res Dy :=
  storeCondition d s.key s.entry { func := some f, value := fun _ => 0 }

/-- src/tdyconditions.c:262-312, `ConditionsSetConstantBoundaryPressure`, `…Velocity`,
`…Temperature`. -/
def setConstantCondition (d : Dy) (k : CondKey) (value : Rat) : Res Dy :=
  storeCondition d k .constantBoundary { func := none, value := fun _ => value }

/-- src/tdycore.c:1403-1456, `TDySelectForcingFunction` to
`TDySelectBoundarySalineConcenctrationFunction`: look the name up, then set. -/
def selectCondition (d : Dy) (s : CondSetter) (name : String) : Res Dy :=
  match Lib.getFn d.lib name with
  | .found f => setCondition d s f
  | .notFound => .err d
  | .ub => .ub

/-- What a material setter is given: one number, three, nine, or a function. -/
inductive MatValue where
  | constant (value : Nat → Rat)
  | function (f : Nat)

/-- Scalar, isotropic, diagonal or full tensor (the words in the names of the setters). -/
inductive Kind where
  | scalar | isotropic | diagonal | full
  deriving DecidableEq, Repr

/-- src/materials/tdymaterialproperties.c:542-661: the function each macro stores. -/
def matEntry : Kind → MatValue → Entry
  | .scalar, .constant _ => .constantScalar
  | .scalar, .function _ => .scalar
  | .isotropic, .constant _ => .constantIsotropic
  | .isotropic, .function _ => .isotropic
  | .diagonal, .constant _ => .constantDiagonal
  | .diagonal, .function _ => .diagonal
  | .full, .constant _ => .constantFull
  | .full, .function _ => .full

/-- src/materials/tdymaterialproperties.c:390-416 with 549-550, 580-581, 612-613, 644: the block of
a material setter.  `stack` is the contents of the uninitialised local array `value[9]`, of which
only the first one or three entries are assigned before all nine are copied. -/
def matBlock (stack : Nat → Rat) : Kind → MatValue → Block
  | _, .function f => { func := some f, value := fun _ => 0 }
  | .scalar, .constant a => { func := none, value := wr stack 0 (a 0) }
  | .isotropic, .constant a => { func := none, value := wr stack 0 (a 0) }
  | .diagonal, .constant a =>
    { func := none, value := wr (wr (wr stack 0 (a 0)) 1 (a 1)) 2 (a 2) }
  | .full, .constant a => { func := none, value := a }

/-- src/tdycore.c:963-1288 and src/materials/tdymaterialproperties.c:542-760: the material setters,
`TDySetConstantPorosity` to `TDySetSalineMolecularWeightFunction`, with the quantity and the kind as
arguments. -/
def setMaterial (d : Dy) (stack : Nat → Rat) (k : MatKey) (kind : Kind) (a : MatValue) : Res Dy :=
  match d.matprop with
  | none => .ub
  | some s =>
    .ok { d with
      blocks := d.blocks ++ [matBlock stack kind a]
      matprop := some (set s k (some d.blocks.length) (some (matEntry kind a).code)
        (some tdyFree)) }

/-! ## The command line -/

/-- The options that concern conditions (src/tdycore.c:554-595), and whether the call fails for
another reason before the conditions are created or after. -/
structure CmdLine where
  pressureFunc : Option String := none
  pressureValue : Option Rat := none
  velocityFunc : Option String := none
  velocityValue : Option Rat := none
  temperatureFunc : Option String := none
  temperatureValue : Option Rat := none
  failsEarly : Bool := false
  failsLate : Bool := false

/-- src/tdycore.c:560-569, the boundary pressure: the return code of
`TDySelectBoundaryPressureFunction` is dropped. -/
def readPressure (c : CmdLine) (d : Dy) (next : Dy → Res Dy) : Res Dy :=
  match c.pressureFunc with
  | some name => (selectCondition d .boundaryPressure name).bindIgnore next
  | none =>
    match c.pressureValue with
    | some p => (setConstantCondition d .boundaryPressure p).bind next
    | none => next d

/-- src/tdycore.c:571-580, the boundary velocity: the return code of
`TDySelectBoundaryVelocityFunction` is dropped. -/
def readVelocity (c : CmdLine) (d : Dy) (next : Dy → Res Dy) : Res Dy :=
  match c.velocityFunc with
  | some name => (selectCondition d .boundaryVelocity name).bindIgnore next
  | none =>
    match c.velocityValue with
    | some p => (setConstantCondition d .boundaryVelocity p).bindIgnore next
    | none => next d

/-- src/tdycore.c:582-591, the boundary temperature: an unknown name is an error. -/
def readTemperature (c : CmdLine) (d : Dy) (next : Dy → Res Dy) : Res Dy :=
  match c.temperatureFunc with
  | some name => (selectCondition d .boundaryTemperature name).bind next
  | none =>
    match c.temperatureValue with
    | some p => (setConstantCondition d .boundaryTemperature p).bindIgnore next
    | none => next d

/-- src/tdycore.c:504-618 and 627-710, `TDySetFromOptions`: conditions are created anew each time,
material properties at the end. -/
def setFromOptions (d : Dy) (c : CmdLine) : Res Dy :=
  if d.setupFinished then .err d
  else if c.failsEarly then .err d
  else
    readPressure c { d with conditions := some Store.create } fun d =>
    readVelocity c d fun d =>
    readTemperature c d fun d =>
      if c.failsLate then .err d
      else .ok { d with matprop := some Store.create }

/-! ## Histories -/

/-- The calls of the public interface that concern user functions. -/
inductive Call where
  | register (name : String) (f : Nat)
  | setCondition (s : CondSetter) (f : Nat)
  | selectCondition (s : CondSetter) (name : String)
  | setMaterial (stack : Nat → Rat) (k : MatKey) (kind : Kind) (a : MatValue)
  | setFromOptions (c : CmdLine)
  /-- src/tdycore.c:724-806, `TDySetup`, as far as it matters here -/
  | setup

/-- One call. -/
def step (d : Dy) : Call → Res Dy
  | .register name f =>
    match Lib.registerFn d.lib name f with
    | .ok l => .ok { d with lib := l }
    | .err l => .err { d with lib := l }
    | .ub => .ub
  | .setCondition s f => setCondition d s f
  | .selectCondition s name => selectCondition d s name
  | .setMaterial stack k kind a => setMaterial d stack k kind a
  | .setFromOptions c => setFromOptions d c
  | .setup => .ok { d with setupFinished := true }

/-- A sequence of calls by a user who carries on after an error; `none` is undefined behaviour. -/
def run : Dy → List Call → Option Dy
  | d, [] => some d
  | d, c :: cs =>
    match step d c with
    | .ok d' => run d' cs
    | .err d' => run d' cs
    | .ub => none

end TDy.Api
