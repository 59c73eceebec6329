import Mathlib.Data.List.Basic

/-!
What a dycore object acquires during its life and what `TDyDestroy` gives back
(src/tdycore.c, src/tdydiscretization.c, src/fv/share/tdydm.c, tdyugdm.c), and the arrays of the
characteristic curves (src/materials/tdycharacteristiccurves.c).

A ledger counts, for each kind of thing, how many are live, and remembers whether the object
still holds a pointer to one.  Creating a thing over a pointer that is already set keeps the old
one live: that is how memory is lost.
-/

namespace TDy.Ledger

/-- The kinds of things a `TDy` object owns. -/
inductive Kind where
  /-- the struct of the object, from `PetscHeaderCreate` -/
  | header
  /-- the table of functions, from `PetscHeaderCreate` -/
  | ops
  /-- `tdy->io` -/
  | io
  /-- `tdy->discretization` -/
  | disc
  /-- `tdy->discretization->tdydm` -/
  | tdydm
  /-- `tdy->discretization->tdydm->ugdm` -/
  | ugdm
  /-- `tdy->discretization->ugrid` -/
  | ugrid
  /-- `tdy->discretization->tdydm->dm` -/
  | dm
  /-- vectors, index sets and scatters stored in the `ugdm` of a mesh in PFLOTRAN format -/
  | ugdmParts
  /-- the three index sets in local order that are created once more -/
  | localOrder
  | conditions | context | matprop | curves | vectors | jacobian | integrator | regression
  /-- `tdy->diag_dm` and `tdy->diag_vec` -/
  | diagnostics
  deriving DecidableEq, Repr

/-- The ledger. -/
structure St where
  live : Kind → Nat
  held : Kind → Bool
  optionsSet : Bool
  setupFinished : Bool

/-- A thing is created and its address stored in the object's pointer for that kind
(`PetscCalloc1`, `DMCreate`, …); what the pointer held before is not given back. -/
def acquire (k : Kind) (s : St) : St :=
  { s with live := fun j => if j = k then s.live j + 1 else s.live j
           held := fun j => if j = k then true else s.held j }

/-- The thing the pointer holds is given back, if there is one (`XDestroy`, `PetscFree`). -/
def release (k : Kind) (s : St) : St :=
  if s.held k then
    { s with live := fun j => if j = k then s.live j - 1 else s.live j
             held := fun j => if j = k then false else s.held j }
  else s

/-- Nothing has been acquired. -/
def empty : St := ⟨fun _ => 0, fun _ => false, false, false⟩

/-- src/tdycore.c:298-327, `TDyCreate`, with src/tdydiscretization.c:6-20
(`TDyDiscretizationCreate`), src/fv/share/tdydm.c:9-19 (`TDyDMCreate`),
src/fv/share/tdyugdm.c:13-38 (`TDyUGDMCreate`) and src/fv/share/tdyugrid.c:17-59
(`TDyUGridCreate`). -/
def create : St :=
  (acquire .ugrid <| acquire .ugdm <| acquire .tdydm <| acquire .disc <| acquire .io <|
    acquire .ops <| acquire .header empty)

/-- The family of the implementation. -/
inductive Family where
  | mpfao | fvtpf | bdm | wy
  deriving DecidableEq, Repr

/-- How the object is configured: the method, whether the mesh comes from a file in PFLOTRAN
format, whether regression output is requested.  Simplification: the same for all calls made on
the object. -/
structure Cfg where
  family : Family
  pflotran : Bool
  regression : Bool
  deriving DecidableEq, Repr

/-- src/fv/share/tdyugdm.c:339-370, `TDyUGDMCreateFromUGrid`: the vectors, the index sets and the
scatters; `CreateLocalOrderIS` is called twice. -/
def ugdmCreate (s : St) : St :=
  acquire .ugdmParts <| acquire .localOrder <| acquire .localOrder s

/-- src/tdycore.c:656-705, the mesh: a mesh in PFLOTRAN format is read at each call
(src/tdydiscretization.c:23-32), any other one only if there is no DM yet. -/
def createMesh (c : Cfg) (s : St) : St :=
  if c.pflotran then acquire .dm (ugdmCreate s)
  else if s.held .dm then s else acquire .dm s

/-- src/tdycore.c:627-717, `TDySetFromOptions`, with line 552 of `ReadCommandLineOptions` that
creates the conditions; refused once `TDySetup` has been called. -/
def setFromOptions (c : Cfg) (s : St) : Option St :=
  if s.setupFinished then none
  else
    let s := acquire .conditions s
    let s := acquire .context s
    let s := createMesh c { s with optionsSet := true }
    some (acquire .curves (acquire .matprop s))

/-- src/tdycore.c:750-760: the implementations with diagnostics, on meshes that are not in PFLOTRAN
format. -/
def hasDiagnostics (c : Cfg) : Bool :=
  !c.pflotran && (decide (c.family = .mpfao) || decide (c.family = .fvtpf))

/-- src/tdycore.c:724-808, `TDySetup`: the diagnostics and the regression data; refused before
`TDySetFromOptions`.  The arrays of the context are in `Model/Memory.lean`. -/
def setup (c : Cfg) (s : St) : Option St :=
  if s.optionsSet then
    let s := if hasDiagnostics c then acquire .diagnostics s else s
    let s := if c.regression then acquire .regression s else s
    some { s with setupFinished := true }
  else none

/-- src/tdycore.c:2166-2182, `TDyCreateVectors`: only if there are none. -/
def createVectors (s : St) : St :=
  if s.held .vectors then s else acquire .vectors s

/-- src/tdycore.c:2187-2198, `TDyCreateJacobian`: only if there is none. -/
def createJacobian (s : St) : St :=
  if s.held .jacobian then s else acquire .jacobian s

/-- src/tdydriver.c:93 and src/tdyti.c:8-14, `TDyTimeIntegratorCreate`. -/
def createIntegrator (s : St) : St := acquire .integrator s

/-- The calls a user makes between `TDyCreate` and `TDyDestroy`. -/
inductive Call where
  | setFromOptions | setup | createVectors | createJacobian | createIntegrator
  deriving DecidableEq, Repr

/-- One call; `none` when it is refused. -/
def step (c : Cfg) (s : St) : Call → Option St
  | .setFromOptions => setFromOptions c s
  | .setup => setup c s
  | .createVectors => some (createVectors s)
  | .createJacobian => some (createJacobian s)
  | .createIntegrator => some (createIntegrator s)

/-- A sequence of calls, none of which is refused. -/
def run (c : Cfg) : St → List Call → Option St
  | s, [] => some s
  | s, e :: h =>
    match step c s e with
    | none => none
    | some s' => run c s' h

/-- src/fv/mpfao/tdympfao.c:449-570 frees its struct (line 566), src/fv/fvtpf/tdyfvtpf.c:32-53,
src/fe/tdybdm.c:37-55 and src/fe/tdywy.c:242-271 do not. -/
def destroyContext (c : Cfg) (s : St) : St :=
  if c.family = .mpfao then release .context s else s

/-- src/tdycore.c:398-401: the diagnostics, if they are supported and `TDySetup` has been called.  On
a mesh in PFLOTRAN format `TDySetup` has removed the function. -/
def destroyDiagnostics (c : Cfg) (s : St) : St :=
  if hasDiagnostics c && s.setupFinished then release .diagnostics s else s

/-- src/tdycore.c:368-420, `TDyDestroy`.  The DM is destroyed, the structs around it are not; the
object is freed with `PetscFree`, not with `PetscHeaderDestroy`. -/
def destroy (c : Cfg) (s : St) : St :=
  let s := release .regression s
  let s := release .jacobian s
  let s := destroyContext c s
  let s := destroyDiagnostics c s
  let s := release .vectors s
  let s := release .io s
  let s := release .integrator s
  let s := release .conditions s
  let s := release .curves s
  let s := release .matprop s
  let s := release .dm s
  release .header s

/-! ### Arrays of the characteristic curves -/

/-- One type of curve in a `Saturation` or `RelativePermeability` struct: the number of points,
whether `points[type]` is set, and the number of live arrays (`points` and `parameters`) that were
allocated for it. -/
structure Slot where
  num : Nat
  held : Bool
  arrays : Nat
  deriving DecidableEq, Repr

/-- src/materials/tdycharacteristiccurves.c:41-47 and 239-245: the struct is zeroed. -/
def Slot.new : Slot := ⟨0, false, 0⟩

/-- src/materials/tdycharacteristiccurves.c:72-115 and 271-316, `SaturationSetType` and
`RelativePermeabilitySetType`, the storage: the arrays are freed if the number of points changes,
and allocated in any case.  `PetscCalloc1` of size zero gives NULL. -/
def Slot.setType (n : Nat) (s : Slot) : Slot :=
  let a := if s.num ≠ n ∧ s.held = true then s.arrays - 2 else s.arrays
  ⟨n, decide (n ≠ 0), a + (if n ≠ 0 then 2 else 0)⟩

/-- src/materials/tdycharacteristiccurves.c:50-59 and 248-257, `SaturationDestroy` and
`RelativePermeabilityDestroy`: each type is set to no points. -/
def Slot.destroy (s : Slot) : Slot := s.setType 0

/-- A sequence of calls with the given numbers of points. -/
def Slot.run (s : Slot) : List Nat → Slot
  | [] => s
  | n :: l => (s.setType n).run l

end TDy.Ledger
