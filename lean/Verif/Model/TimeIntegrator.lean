import Verif.Basic
import Verif.Spec.TimeIntegrator

/-!
# Model of the time integrator (src/tdyti.c)

Times are real numbers.  `V` is the type of solution vectors.  The nonlinear solver is arbitrary:
`solver n` is the vector left by, and the success of, the `n`-th call of `SNESSolve`.
`trace` records what an observer of the run sees; the code does not read it.
-/

namespace TDy.Time

noncomputable section

/-- include/private/tdytiimpl.h:8-21, the fields `RunToTime` uses with SNES. -/
structure Ti where
  dtMax : ℝ
  growth : ℝ
  dt : ℝ
  dtSave : ℝ
  time : ℝ
  istep : Nat

/-- src/tdyti.c:8-69, `TDyTimeIntegratorCreate` without options. -/
def Ti.default : Ti :=
  { dtMax := 1e20, growth := 1.25, dt := 1, dtSave := 0, time := 0, istep := 0 }

/-- The parts of `TDy` a run reads and writes. -/
structure Sim (V : Type) where
  ti : Ti
  /-- `tdy->soln` -/
  soln : V
  /-- `tdy->soln_prev` -/
  solnPrev : V
  /-- `tdy->dtime` -/
  dtime : ℝ
  /-- number of `SNESSolve` calls made so far -/
  calls : Nat
  trace : List (Ev V)

/-- What a run does not change. -/
structure Cfg where
  /-- `TDyTimeCut` is implemented: discretization `FV_TPF` (src/tdycore.c:2126-2162) -/
  canCut : Bool
  /-- src/tdyio.c:76-88; the intervals are modelled as non-negative -/
  ckEnable : Bool
  ckInterval : Nat
  outInterval : Nat

variable {V : Type}

/-- src/tdyti.c:71-81, `TDyTimeIntegratorUpdateDT`. -/
def updateDT (ti : Ti) (sync : ℝ) : Ti :=
  let time := if ti.dtSave > 0 then sync else ti.time
  let dt := if ti.dtSave > 0 then ti.dtSave else ti.dt
  let dtSave := if ti.dtSave > 0 then 0 else ti.dtSave
  let dt := dt * ti.growth
  { ti with time := time, dtSave := dtSave, dt := if dt > ti.dtMax then ti.dtMax else dt }

/-- src/tdyti.c:83-91, `TDyTimeIntegratorSetTargetTime`. -/
def setTargetTime (ti : Ti) (sync : ℝ) : Ti :=
  { ti with
    dtSave := if ti.dt > sync - ti.time then ti.dt else ti.dtSave
    dt := if ti.dt > sync - ti.time then sync - ti.time else ti.dt }

/-- src/tdyti.c:93-98, `TDyTimeIntegratorSetTimeStep`. -/
def setTimeStep (s : Sim V) (dt : ℝ) : Sim V := { s with ti := { s.ti with dt := dt } }

/-- src/tdyti.c:162-166: output at the step interval; `TDyIOWriteVec` (src/tdyio.c:399-406) writes
`soln_prev` labelled with `ti->time`. -/
def maybeOutput (c : Cfg) (s : Sim V) : Sim V :=
  if c.outInterval > 0 ∧ s.ti.istep % c.outInterval = 0 then
    { s with trace := s.trace ++ [.output s.ti.time s.ti.istep s.solnPrev] }
  else s

/-- src/tdyti.c:132-133: `SNESSolve` after `TDyPreSolveSNESSolver` (which computes the old
accumulation term from `soln_prev` and `dtime`, src/fv/fvtpf/tdyfvtpf_snes.c:44-73). -/
def solve (solver : Nat → V × Bool) (s : Sim V) : Sim V :=
  { s with
    soln := (solver s.calls).1
    calls := s.calls + 1
    trace := s.trace ++ [.attempt ⟨s.ti.time, s.dtime, s.soln, s.solnPrev,
      (solver s.calls).1, (solver s.calls).2⟩] }

/-- src/tdyti.c:139-142: cut the step. -/
def cutStep (s : Sim V) : Sim V :=
  { s with ti := { s.ti with dt := s.ti.dt * 0.25 }, dtime := s.ti.dt * 0.25 }

/-- src/fv/fvtpf/tdyfvtpf_snes.c:82-115, `TDyFVTPFSNESTimeCut` (its effect on the vectors). -/
def restore (s : Sim V) : Sim V := { s with soln := s.solnPrev }

/-- src/tdyti.c:151-154 and src/tdycore.c:2056-2063: accept the step. -/
def accept (s : Sim V) : Sim V :=
  { s with
    ti := { s.ti with time := s.ti.time + s.ti.dt, istep := s.ti.istep + 1 }
    solnPrev := s.soln }

/-- src/tdyti.c:131-167, the inner loop; the first argument is `max_time_step_cuts - icut`. -/
def inner (c : Cfg) (solver : Nat → V × Bool) : Nat → Sim V → Res (Sim V × Nat)
  | 0, s => .err (s, 0)
  | r + 1, s =>
    if (solver s.calls).2 then
      .ok (maybeOutput c (accept (solve solver s)), r + 1)
    else if c.canCut then
      if r = 0 then .err (restore (cutStep (solve solver s)), 0)
      else inner c solver r (maybeOutput c (restore (cutStep (solve solver s))))
    else .err (cutStep (solve solver s), r)

/-- src/tdyio.c:339-360, `TDyIOOutputCheckpoint`: it writes `soln_prev`. -/
def checkpoint (s : Sim V) : Sim V :=
  { s with trace := s.trace ++ [.checkpoint s.ti.time s.ti.istep s.solnPrev] }

/-- src/tdyti.c:169-176: returns the state and the flag `checkpoint`; a zero interval divides by
zero. -/
def maybeCheckpoint (c : Cfg) (s : Sim V) (flag : Bool) : Option (Sim V × Bool) :=
  if c.ckEnable then
    if c.ckInterval = 0 then none
    else if s.ti.istep % c.ckInterval = 0 then some (checkpoint s, false)
    else some (s, true)
  else some (s, flag)

/-- The state of the outer loop: `tdy`, `max_time_step_cuts - icut`, `checkpoint`. -/
structure Loop (V : Type) where
  s : Sim V
  left : Nat
  flag : Bool

/-- src/tdyti.c:128-129 -/
def startStep (sync : ℝ) (s : Sim V) : Sim V :=
  { s with ti := setTargetTime s.ti sync, dtime := (setTargetTime s.ti sync).dt }

/-- src/tdyti.c:116-178, one round of the outer loop. -/
def round (c : Cfg) (solver : Nat → V × Bool) (sync : ℝ) (l : Loop V) : Res (Loop V) :=
  match inner c solver l.left (startStep sync l.s) with
  | .err (s, left) => .err { s := s, left := left, flag := l.flag }
  | .ub => .ub
  | .ok (s, left) =>
    match maybeCheckpoint c s l.flag with
    | none => .ub
    | some (s, flag) =>
      .ok { s := { s with ti := updateDT s.ti sync }, left := left, flag := flag }

/-- src/tdyti.c:116: `while (ti->time < sync_time)`, cut off after `fuel` rounds (`none`). -/
def loop (c : Cfg) (solver : Nat → V × Bool) (sync : ℝ) : Nat → Loop V → Option (Res (Loop V))
  | 0, _ => none
  | f + 1, l =>
    open Classical in
    if l.s.ti.time < sync then
      match round c solver sync l with
      | .ok l' => loop c solver sync f l'
      | .err l' => some (.err l')
      | .ub => some .ub
    else some (.ok l)

/-- src/tdyti.c:180-182 -/
def finish (c : Cfg) (l : Loop V) : Sim V :=
  if c.ckEnable && l.flag then checkpoint l.s else l.s

/-- src/tdyti.c:100-183, `TDyTimeIntegratorRunToTime` with SNES, cut off after `fuel` rounds. -/
def runToTime (c : Cfg) (solver : Nat → V × Bool) (sync : ℝ) (fuel : Nat) (s : Sim V) :
    Option (Res (Sim V)) :=
  (loop c solver sync fuel { s := s, left := 25, flag := false }).map fun
    | .ok l => .ok (finish c l)
    | .err l => .err l.s
    | .ub => .ub

/-! ## PETSc TS -/

/-- PETSc's `TSSolve` with `TS_EXACTFINALTIME_MATCHSTEP` (src/tdydriver.c:159) and a solver that
does not fail: it integrates to the maximum time exactly, or not at all if it is already there. -/
def tsSolve (t maxTime : ℝ) : ℝ := open Classical in if t < maxTime then maxTime else t

/-- src/tdyti.c:184-193, `TDyTimeIntegratorRunToTime` with TS, on `ti->time` (which is also the
time of the `TS`, both start at 0). -/
def runToTimeTS (time sync : ℝ) : ℝ := tsSolve time (sync - time)

end

end TDy.Time
