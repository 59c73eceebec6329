import Verif.Basic
import Verif.Loop
import Verif.Model.TimeIntegrator

/-!
# PETSc objects that calls repeated in a run create and destroy

Models which vectors, viewers, index sets, scatters and random number generators the functions below
create and destroy, in the order in which they do it: src/tdyio.c, the field getters of src/tdycore.c,
src/tdydiscretization.c 290-306, src/tdyregression.c, the initial fields of the modes, the residual of
`MPFA_O_DAE` and the Jacobians that borrow a vector.  What the objects hold is not modelled here, and creation does not fail.  PETSc's
reference counts are all one: none of these functions calls `PetscObjectReference`.
-/

namespace TDy.Objs

open TDy

/-- The kinds of PETSc objects. -/
inductive Kind where
  | vec | viewer | rand | is | scatter
  deriving DecidableEq, Repr

/-- The objects of the process, numbered in the order of creation; `none`: not (or no longer) there. -/
structure Pool where
  next : Nat
  live : Nat → Option Kind

/-- `VecCreate`, `DMCreateGlobalVector`, `PetscViewerHDF5Open` and the like. -/
def create (k : Kind) (s : Pool) : Nat × Pool := (s.next, ⟨s.next + 1, wr s.live s.next (some k)⟩)

/-- `VecDestroy`, `PetscViewerDestroy` and the like (with one reference); destroying what is not there is
undefined. -/
def destroy (b : Nat) (s : Pool) : Res Pool :=
  if (s.live b).isSome then .ok ⟨s.next, wr s.live b none⟩ else .ub

/-- src/tdyio.c, include/tdyio.h: the output formats; `unset` is what `TDyIOCreate` leaves. -/
inductive Format where
  | unset | ascii | exodus | hdf5
  deriving DecidableEq, Repr

/-- What the functions branch on. -/
structure Cfg where
  /-- the mesh is a `DMPLEX` (and not TDycore's own) -/
  plex : Bool
  /-- `DMGetUseNatural` -/
  natural : Bool
  format : Format
  /-- `PETSC_HAVE_EXODUSII` -/
  exodusII : Bool
  /-- `tdy->options.mode == TH` -/
  th : Bool

/-- `TDyGlobalToNatural`, `TDyNaturalToGlobal`, src/tdydiscretization.c 190-220, 250-281: with a `DMPLEX` without natural
ordering the process exits (modelled as an error). -/
def toNatural (c : Cfg) (s : Pool) : Res Pool := if c.plex && !c.natural then .err s else .ok s

/-- `TDyGetLiquidSaturation`, `TDyGetLiquidMass`, `TDyGetLiquidPressure`, src/tdycore.c 1795-1861. -/
def getField (c : Cfg) (s : Pool) : Res Pool :=
  let (tmp, s) := create .vec s
  (toNatural c s).bind (destroy tmp)

/-- `TDyIOWriteAsciiViewer`, src/tdyio.c 571-583; `TDyIOWriteHDF5Var`, 479-506; `TDyIOInitializeHDF5`,
465-477; `TDyIOInitializeExodus` (508-530) with `PETSC_HAVE_EXODUSII`. -/
def view (s : Pool) : Res Pool :=
  let (viewer, s) := create .viewer s
  destroy viewer s

/-- `TDyIOWriteExodusVar`, src/tdyio.c 555-569 (`TDyIOAddExodusTime`, 532-553, opens and closes the file
itself). -/
def viewExodus (c : Cfg) (s : Pool) : Res Pool := if c.exodusII then view s else .ok s

/-- `TDyIOWriteVec`, src/tdyio.c 399-463. -/
def writeVec (c : Cfg) (s : Pool) : Res Pool :=
  let (sat, s) := create .vec s
  (getField c s).bind fun s =>
  (match c.format with
    | .ascii => (view s).bind view
    | .exodus => (viewExodus c s).bind (viewExodus c)
    | .hdf5 =>
      if c.natural then
        let (_pNatural, s) := create .vec s
        (toNatural c s).bind fun s =>
        let (_sNatural, s) := create .vec s
        (toNatural c s).bind fun s => (view s).bind view
      else (view s).bind view
    | .unset => .err s).bind (destroy sat)

/-- `TDyIOOutputCheckpoint`, src/tdyio.c 339-359. -/
def outputCheckpoint (c : Cfg) (s : Pool) : Res Pool :=
  let (viewer, s) := create .viewer s
  let (_pNatural, s) := create .vec s
  (toNatural c s).bind (destroy viewer)

/-- `TDyDiscretizationNaturaltoLocal`, src/tdydiscretization.c 290-306. -/
def naturalToLocal (c : Cfg) (s : Pool) : Res Pool :=
  let (global, s) := create .vec s
  (toNatural c s).bind (destroy global)

/-- `TDySetInitialCondition`, src/tdycore.c 1625-1632. -/
def setInitialCondition (c : Cfg) (s : Pool) : Res Pool :=
  (toNatural c s).bind fun s => (toNatural c s).bind (naturalToLocal c)

/-- `TDyIOReadIC`, src/tdyio.c 263-289. -/
def readIC (c : Cfg) (s : Pool) : Res Pool :=
  let (u, s) := create .vec s
  let (_viewer, s) := create .viewer s
  (setInitialCondition c s).bind (destroy u)

/-- `TDyIOReadVariable`, src/tdyio.c 301-332. -/
def readVariable (c : Cfg) (s : Pool) : Res Pool :=
  let (_u, s) := create .vec s
  let (viewer, s) := create .viewer s
  let (_uLocal, s) := create .vec s
  (naturalToLocal c s).bind (destroy viewer)

/-- `TDyIOReadPermeability`, src/tdyio.c 164-213; `TDyIOReadPorosity` (234-254) reads like the isotropic
case, without checking the return value. -/
def readPermeability (c : Cfg) (anisotropic : Bool) (s : Pool) : Res Pool :=
  if anisotropic then
    (readVariable c s).bind fun s => (readVariable c s).bind (readVariable c)
  else readVariable c s

/-- `ExtractSubVectors`, src/tdyutils.c 638-659: nothing is created when the stride is refused. -/
def extractSub (blockSize stride : Nat) (s : Pool) : Option Nat × Pool :=
  if stride ≥ blockSize then (none, s)
  else
    let (v, s) := create .vec s
    (some v, s)

/-- `TDyMPFAOIFunction_DAE`, src/fv/mpfao/tdympfao_ts_dae.c 13-83; the return values of
`ExtractSubVectors` are not checked, and vectors that were not created are then used. -/
def residualDAE (blockSize : Nat) (s : Pool) : Res Pool :=
  let (P, s) := extractSub blockSize 0 s
  let (M, s) := extractSub blockSize 1 s
  let (RP, s) := extractSub blockSize 0 s
  let (_RM, s) := extractSub blockSize 1 s
  if P.isSome && M.isSome && RP.isSome then .ok s else .ub

/-- `TDyMPFAOIJacobian`, src/fv/mpfao/tdympfao_ts.c 519-562, and its TH form (th_ts.c 843-880), without `DEBUG`: a vector
borrowed with `DMGetLocalVector` is given back; borrowing is modelled as creating. -/
def jacobian (s : Pool) : Res Pool :=
  let (udotl, s) := create .vec s
  destroy udotl s

/-- The two objects `TDyRegressionInitialize` keeps. -/
structure Regression where
  cellsPerProcess : Nat
  scatter : Nat

/-- `TDyRegressionInitialize`, src/tdyregression.c 6-139, with a positive number of cells per process. -/
def regressionInitialize (s : Pool) : Res (Regression × Pool) :=
  let (U, s) := create .vec s
  let (temp, s) := create .vec s
  let (cpp, s) := create .vec s
  let (is1, s) := create .is s
  let (sc, s) := create .scatter s
  match (destroy is1 s).bind fun s => (destroy sc s).bind (destroy temp) with
  | .ok s =>
    let (is2, s) := create .is s
    let (keep, s) := create .scatter s
    match (destroy is2 s).bind (destroy U) with
    | .ok s => .ok (⟨cpp, keep⟩, s)
    | .err s => .err (⟨cpp, keep⟩, s)
    | .ub => .ub
  | .err s => .err (⟨cpp, 0⟩, s)
  | .ub => .ub

/-- `TDyRegressionOutput`, src/tdyregression.c 141-274. -/
def regressionOutput (c : Cfg) (s : Pool) : Res Pool :=
  let (pres, s) := create .vec s
  if c.th then
    let (temp, s) := create .vec s
    (destroy pres s).bind (destroy temp)
  else destroy pres s

/-- `TDyRegressionDestroy`, src/tdyregression.c 276-286. -/
def regressionDestroy (r : Regression) (s : Pool) : Res Pool :=
  (destroy r.scatter s).bind (destroy r.cellsPerProcess)

/-- How a mode sets its first fields. -/
inductive Init where
  | random | file | constant
  deriving DecidableEq, Repr

/-- `TDyRichardsInitialize`, src/tdyrichards.c 5-28. -/
def richardsInitialize (i : Init) (s : Pool) : Res Pool :=
  match i with
  | .random =>
    let (rand, s) := create .rand s
    destroy rand s
  | .file => view s
  | .constant => .ok s

/-- `TDyTHInitialize`, src/tdyth.c 4-45, and `TDySalinityInitialize`, src/tdysalinity.c 4-42, which do not read a
file. -/
def coupledInitialize (i : Init) (s : Pool) : Res Pool :=
  match i with
  | .random =>
    let (rand, s) := create .rand s
    let (temp, s) := create .vec s
    (destroy temp s).bind (destroy rand)
  | _ => .ok s

/-- The objects over the events of a run (src/tdyti.c 100-183): an output is a call of `TDyIOWriteVec`
(164), a checkpoint one of `TDyIOOutputCheckpoint` (172, 180).  The solves are taken to give back what they take: the residuals
of the methods a SNES run can use create no objects. -/
def duringRun {V : Type} (c : Cfg) : List (Time.Ev V) → Pool → Res Pool
  | [], s => .ok s
  | .attempt _ :: l, s => duringRun c l s
  | .output _ _ _ :: l, s => (writeVec c s).bind (duringRun c l)
  | .checkpoint _ _ _ :: l, s => (outputCheckpoint c s).bind (duringRun c l)

end TDy.Objs
