import Verif.Basic
import Verif.Loop

/-!
# Timers, profiling stages and the timing profile

Models include/tdytimers.h and src/tdytimers.c, with the functions that use them.
PETSc's event and stage logs are modelled by what `PetscLogEventBegin/End` and
`PetscLogStagePush/Pop` do to the records of one process.  PETSc keeps a record of an event for every
stage; the model keeps one record.
-/

namespace TDy.Timers

open TDy

/-! ### Function timers -/

/-- PETSc's record of an event: nesting depth, number of calls, accumulated time. -/
structure Event where
  depth : Nat
  count : Nat
  time : Int
  deriving DecidableEq, Repr

/-- The registry of timers (`TDY_TIMERS`, names and event numbers, include/tdytimers.h:23-24), the
number of events PETSc has registered, and their records. -/
structure Log where
  table : List (String × Nat)
  registered : Nat
  event : Nat → Event

/-- The log when timers are initialised (src/tdytimers.c:35-39). -/
def Log.empty : Log := ⟨[], 0, fun _ => ⟨0, 0, 0⟩⟩

/-- include/tdytimers.h:27-40, `TDyGetTimer`: creates or returns a timer. -/
def getTimer (l : Log) (name : String) : Nat × Log :=
  match l.table.lookup name with
  | none => (l.registered, { l with table := (name, l.registered) :: l.table,
                                    registered := l.registered + 1 })
  | some i => (i, l)

/-- include/tdytimers.h:43-44, `TDyStartTimer`.  PETSc: nested calls are not counted again. -/
def startTimer (l : Log) (i : Nat) (now : Int) : Log :=
  let e := l.event i
  let e' : Event :=
    if e.depth + 1 > 1 then { e with depth := e.depth + 1 }
    else { depth := e.depth + 1, count := e.count + 1, time := e.time - now }
  { l with event := wr l.event i e' }

/-- include/tdytimers.h:48-49, `TDyStopTimer`.  PETSc reports an error if the event was not begun. -/
def stopTimer (l : Log) (i : Nat) (now : Int) : Res Log :=
  let e := l.event i
  if e.depth = 0 then .err l
  else if e.depth - 1 > 0 then .ok { l with event := wr l.event i { e with depth := e.depth - 1 } }
  else .ok { l with event := wr l.event i { e with depth := e.depth - 1, time := e.time + now } }

/-- Does a function that starts its timer stop it before it returns?  All do except
`TDyFVTPFSNESTimeCut` (src/fv/fvtpf/tdyfvtpf_snes.c:82-115), `TDyFVTPFSNESJacobian`
(src/fv/fvtpf/tdyfvtpf_snes.c:639-738) and `TDyMPFAOIJacobian_Accumulation_TH`
(src/fv/mpfao/tdympfao_th_ts.c:577-841). -/
def stops (name : String) : Bool :=
  name ≠ "TDyFVTPFSNESTimeCut" ∧ name ≠ "TDyFVTPFSNESJacobian" ∧
  name ≠ "TDyMPFAOIJacobian_Accumulation_TH"

/-- An execution: a sequence of calls, each with the times at which it begins and ends and the calls
made inside. -/
inductive Exec where
  | done
  | call (name : String) (t0 t1 : Int) (inside rest : Exec)
  deriving Repr

/-- include/tdytimers.h:53-60, `TDY_START_FUNCTION_TIMER` and `TDY_STOP_FUNCTION_TIMER` around the
bodies of functions.  `__func__` is the name. -/
def run (l : Log) : Exec → Res Log
  | .done => .ok l
  | .call name t0 t1 inside rest =>
    let (i, l) := getTimer l name
    (run (startTimer l i t0) inside).bind fun l =>
      (if stops name then stopTimer l i t1 else .ok l).bind fun l => run l rest

/-! ### Stages -/

/-- PETSc's stages: the stack (the first is the current one) and the time of each stage. -/
structure Stages where
  stack : List String
  time : String → Int

/-- src/tdytimers.c:51-55: the stages that are registered. -/
def registeredStages : List String := ["TDycore Setup", "TDycore Stepping", "TDycore I/O"]

/-- Adds to the time of a stage. -/
def addTime (s : Stages) (name : String) (dt : Int) : Stages :=
  { s with time := fun n => if n = name then s.time n + dt else s.time n }

/-- Adds to the time of the current stage. -/
def addCurrent (s : Stages) (dt : Int) : Stages :=
  match s.stack with
  | [] => s
  | c :: _ => addTime s c dt

/-- include/tdytimers.h:70-78, `TDyEnterProfilingStage`, with `PetscLogStagePush`: the time of the
current stage ends and that of the new one begins. -/
def enterStage (s : Stages) (name : String) (now : Int) : Stages :=
  if name ∈ registeredStages then
    addCurrent { addCurrent s now with stack := name :: s.stack } (-now)
  else s

/-- include/tdytimers.h:82-87, `TDyExitProfilingStage`, with `PetscLogStagePop`. -/
def exitStage (s : Stages) (name : String) (now : Int) : Stages :=
  if name ∈ registeredStages then
    addCurrent { addCurrent s now with stack := s.stack.tail } (-now)
  else s

/-- The stage a function enters: src/tdydriver.c:13, 231; src/tdycore.c:740, 804, 1464, 1474.  No other
function enters a stage. -/
def stageOf (name : String) : Option String :=
  if name = "TDyDriverInitializeTDy" ∨ name = "TDySetup" ∨ name = "TDyUpdateState" then
    some "TDycore Setup"
  else none

/-- The stages in an execution. -/
def runStages (s : Stages) : Exec → Stages
  | .done => s
  | .call name t0 t1 inside rest =>
    match stageOf name with
    | none => runStages (runStages s inside) rest
    | some g => runStages (exitStage (runStages (enterStage s g t0) inside) g t1) rest

/-! ### The timing profile -/

/-- The discretizations, as far as the struct behind `tdy->context` is concerned. -/
inductive Method where
  | mpfao | mpfaoDae | fvtpf | bdm | wy
  deriving DecidableEq, Repr

/-- Words of eight bytes in the struct of a method. -/
inductive Word where
  | ints | real | mesh | pointer | quadrature
  deriving DecidableEq, Repr

/-- The first words of the structs (32-bit `PetscInt`): include/private/tdympfaoimpl.h:13-35,
include/private/tdyfvtpfimpl.h:12-34, include/private/tdybdmimpl.h:9-20,
include/private/tdywyimpl.h:12-26. -/
def layout : Method → List Word
  | .mpfao | .mpfaoDae =>
      [.ints, .real, .real, .real, .real, .real, .real, .mesh, .pointer, .pointer, .pointer]
  | .fvtpf =>
      [.ints, .real, .real, .real, .real, .real, .real, .mesh, .pointer, .pointer, .pointer]
  | .bdm =>
      [.pointer, .pointer, .pointer, .ints, .pointer, .pointer, .pointer, .quadrature, .pointer]
  | .wy =>
      [.real, .real, .real, .real, .real, .real, .real, .ints, .pointer, .pointer, .pointer]

/-- Is `mesh` set by the set-up of the method?  `TDySetup_Richards_MPFAO_DAE` returns at once
(src/fv/mpfao/tdympfao.c:2334-2340). -/
def meshIsSet : Method → Bool
  | .mpfaoDae => false
  | _ => true

/-- `TimingMetadata` (src/tdytimers.c:13-18). -/
structure Meta where
  mode : String
  method : Method
  numCells : Nat
  numProc : Nat
  deriving DecidableEq, Repr

/-- A TDy on one process. -/
structure Dycore where
  address : Nat
  mode : String
  method : Method
  numCellsLocal : Nat

/-- The state of the subsystem in one process. -/
structure Prof where
  enabled : Bool
  table : List (Nat × Meta)

/-- src/tdytimers.c:81-113, `TDySetTimingMetadata`: the context is taken for that of MPFA-O
(its eighth word for the mesh); the data are filled in after the pointer was stored in the table, and
if the table already has the address the new data are not stored.  The case of no DM is left out. -/
def setMetadata (p : Prof) (numProc : Nat) (d : Dycore) : Res Prof :=
  if p.enabled = false then .ok p
  else if (layout d.method)[7]? ≠ some .mesh ∨ meshIsSet d.method = false then .ub
  else
    let md : Meta := ⟨d.mode, d.method, d.numCellsLocal, numProc⟩
    match p.table.lookup d.address with
    | none => .ok { p with table := (d.address, md) :: p.table }
    | some _ => .ok p

/-- What the profile says. -/
structure Footer where
  mode : String
  method : Method
  numProc : Nat
  numCells : Nat
  deriving DecidableEq, Repr

/-- The file that `TDyWriteTimingProfile` leaves: its name, and the footer if one is written. -/
structure Written where
  file : String
  footer : Footer

/-- src/tdytimers.c:115-162, `TDyWriteTimingProfile` on `numRanks` processes.  `first` is the entry
that is met first in the table of a rank; with an empty table the loop
`while (!kh_exist(..)) ++md_iter` reads the flags of a table that has none.  The cells are summed with
`MPI_Reduce` and rank 0 writes. -/
def writeProfile (_filename : String) (numRanks : Nat) (p : Nat → Prof)
    (first : List (Nat × Meta) → Option Meta) : Res (Option Written) :=
  if (p 0).enabled = false then .ok none
  else if ∃ r < numRanks, first (p r).table = none then .ub
  else match first (p 0).table with
    | none => .ub
    | some md => .ok (some ⟨"tdycore_profile.csv",
        ⟨md.mode, md.method, md.numProc,
          forN numRanks (fun r n => n + ((first (p r).table).elim 0 Meta.numCells)) 0⟩⟩)

end TDy.Timers
