import Verif.Model.Lifecycle
import Mathlib.Data.Real.Basic

/-!
# Model of the Fortran interface (src/f90-mod/tdycoremod.F90, src/f90-mod/tdycoref.c)

Functions of a Fortran program cannot be handed to C.  The module keeps them in arrays and hands over
their positions; the C side stores the position in a block and calls back with it.

Kept: the two arrays (functions with real and with integer values), the one counter for both, the names,
reads beyond the end of an array, what freshly allocated names contain.  Procedures are numbers (their
addresses); a procedure that is not associated is `none`.  Simplified: setters are called after
TDySetFromOptions (before it they are undefined, C160); allocation does not fail; the
blocks of the C side are released and replaced as in C08 and C10, so that an object and a quantity have
the position handed over last.
-/

namespace TDy.Fortran

open TDy

/-- The quantities the module has setters for (src/f90-mod/tdycoremod.F90:562-690, 715-739, 787-811). -/
inductive Slot where
  | forcing | energyForcing | boundaryPressure | boundaryPressureType | boundaryVelocity
  | porosity | residualSaturation
  deriving DecidableEq, Repr

/-- Functions with real values and functions with integer values are kept apart
(src/f90-mod/tdycoremod.F90:53-54). -/
inductive Kind where
  | real | int
  deriving DecidableEq, Repr

/-- src/f90-mod/tdycoremod.F90:640-664: the type of the boundary condition is the only integer. -/
def Slot.kind : Slot → Kind
  | .boundaryPressureType => .int
  | _ => .real

/-- `spatial_funcs_` and `spatial_func_names_` or their integer counterparts
(src/f90-mod/tdycoremod.F90:53-56): positions start at 1; names have 32 characters. -/
structure Table where
  size : Nat
  fn : Nat → Option Nat
  name : Nat → List Char

/-- The variables of the module, and the positions the C side holds for each object. -/
structure World where
  tab : Kind → Option Table
  /-- `last_spatial_func_id_` (src/f90-mod/tdycoremod.F90:59) -/
  last : Nat
  held : Nat → Slot → Option Nat

/-- The start of a program; the counter has no value yet. -/
def start (junk : Nat) : World := ⟨fun _ => none, junk, fun _ _ => none⟩

/-- src/f90-mod/tdycoremod.F90:355-356 and 395-396: functions are not associated
(src/f90-mod/tdycoremod.F90:44 and 49), names hold what was in memory. -/
def fresh (junk : Nat → List Char) : Table := ⟨32, fun _ => none, junk⟩

/-- src/f90-mod/tdycoremod.F90:360-364 and 400-404: the loop over `n` positions from `id` on. -/
def search (t : Table) (f : Nat) : Nat → Nat → Res Nat
  | 0, id => .ok id
  | n + 1, id =>
    if id ≤ t.size then (if t.fn id = some f then .ok id else search t f n (id + 1)) else .ub

/-- src/f90-mod/tdycoremod.F90:369-377 and 409-417: arrays of twice the size. -/
def grow (junk : Nat → List Char) (t : Table) : Table :=
  ⟨2*t.size, fun i => if i ≤ t.size then t.fn i else none, fun i => if i ≤ t.size then t.name i else junk i⟩

/-- Writes a table back. -/
def World.put (w : World) (k : Kind) (t : Table) (last : Nat) : World :=
  ⟨fun k' => if k' = k then some t else w.tab k', last, w.held⟩

/-- src/f90-mod/tdycoremod.F90:367-382 and 407-422: the test after the loop, and the append. -/
def append (junk : Nat → List Char) (w : World) (k : Kind) (t : Table) (last f id : Nat) :
    Res (World × Nat) :=
  if t.size < id then .ub
  else if t.fn id = some f then .ok (w.put k t last, id)
  else
    let t := if t.size < last then grow junk t else t
    if t.size < last then .ub
    else .ok (w.put k ⟨t.size, fun i => if i = last then some f else t.fn i, t.name⟩ (last + 1), last)

/-- src/f90-mod/tdycoremod.F90:345-383 and 385-423, FindOrAppendSpatialFunction and
FindOrAppendIntegerSpatialFunction. -/
def findOrAppend (junk : Nat → List Char) (w : World) (k : Kind) (f : Nat) : Res (World × Nat) :=
  match w.tab k with
  | none => append junk w k (fresh junk) 1 f 1
  | some t =>
    match search t f w.last 1 with
    | .ok id => append junk w k t w.last f id
    | .err _ => .ub
    | .ub => .ub

/-- src/f90-mod/tdycoremod.F90:562-664 and the like, with src/f90-mod/tdycoref.c:280-308, 374-434: the position is
stored for the object and the quantity. -/
def setFunction (junk : Nat → List Char) (w : World) (obj : Nat) (s : Slot) (f : Nat) : Res World :=
  match findOrAppend junk w s.kind f with
  | .ok (w, id) => .ok ⟨w.tab, w.last, fun o s' => if o = obj ∧ s' = s then some id else w.held o s'⟩
  | .err (w, _) => .err w
  | .ub => .ub

/-- src/f90-mod/tdycoref.c:310-327 and src/f90-mod/tdycoremod.F90:306-341: which function is called when
the quantity is evaluated; `none` if no function was set. -/
def evaluated (w : World) (obj : Nat) (s : Slot) : Res (Option Nat) :=
  match w.held obj s with
  | none => .ok none
  | some id =>
    match w.tab s.kind with
    | none => .ub
    | some t =>
      if id = 0 ∨ t.size < id then .ub
      else match t.fn id with
        | some f => .ok (some f)
        | none => .ub

/-- Assignment to a variable of 32 characters: blanks are added or characters dropped. -/
def pad (n : List Char) : List Char := (n ++ List.replicate 32 ' ').take 32

/-- src/f90-mod/tdycoremod.F90:425-434 and 461-469, RegisterSpatialFunction and TDyRegisterFunction. -/
def register (junk : Nat → List Char) (w : World) (n : List Char) (f : Nat) : Res World :=
  match findOrAppend junk w .real f with
  | .ok (w, id) =>
    match w.tab .real with
    | none => .ub
    | some t =>
      if t.size < id then .ub
      else .ok (w.put .real ⟨t.size, t.fn, fun i => if i = id then pad n else t.name i⟩ w.last)
  | .err (w, _) => .err w
  | .ub => .ub

/-- src/f90-mod/tdycoremod.F90:443-447: the loop over all positions of the array; the last one counts. -/
def lookup (t : Table) (n : List Char) : Nat → Option Nat
  | 0 => none
  | i + 1 => if t.name (i + 1) = n then t.fn (i + 1) else lookup t n i

/-- src/f90-mod/tdycoremod.F90:436-448, GetSpatialFunction: `name(1:32)` needs 32 characters. -/
def getFunction (w : World) (n : List Char) : Res (Option Nat) :=
  match w.tab .real with
  | none => .ub
  | some t => if n.length < 32 then .ub else .ok (lookup t (n.take 32) t.size)

/-- src/f90-mod/tdycoremod.F90:492-560, TDySelectPorosityFunction and the like: a procedure that is not
associated must not be handed on. -/
def selectFunction (junk : Nat → List Char) (w : World) (obj : Nat) (s : Slot) (n : List Char) : Res World :=
  match getFunction w n with
  | .ok (some f) => setFunction junk w obj s f
  | .ok none => .ub
  | .err _ => .ub
  | .ub => .ub

/-- The calls of a program. -/
inductive Call where
  | set (obj : Nat) (s : Slot) (f : Nat)
  | register (name : List Char) (f : Nat)
  | select (obj : Nat) (s : Slot) (name : List Char)

/-- One call. -/
def step (junk : Nat → List Char) (w : World) : Call → Res World
  | .set o s f => setFunction junk w o s f
  | .register n f => register junk w n f
  | .select o s n => selectFunction junk w o s n

/-- A program. -/
def run (junk : Nat → List Char) : World → List Call → Res World
  | w, [] => .ok w
  | w, c :: cs =>
    match step junk w c with
    | .ok w => run junk w cs
    | .err w => .err w
    | .ub => .ub

/-! ## The arrays a function gets -/

/-- An array with its extent as a Fortran procedure sees it. -/
structure View where
  extent : Nat
  val : Nat → ℝ

/-- Element `i`, counted from 0. -/
def View.get (v : View) (i : Nat) : Res ℝ := if i < v.extent then .ok (v.val i) else .ub

/-- `f(:) = c`. -/
def View.fill (v : View) (c : ℝ) : View := ⟨v.extent, fun i => if i < v.extent then c else v.val i⟩

/-- A function of the program: number of points, coordinates and output give the output. -/
abbrev UserFn := Nat → View → View → Res View

/-- src/f90-mod/tdycoremod.F90:306-322, TDyCallF90SpatialFunction: `c_f_pointer` with extent `n` for both
arrays. -/
def callFunction (U : UserFn) (n : Nat) (x f : Nat → ℝ) : Res (Nat → ℝ) :=
  match U n ⟨n, x⟩ ⟨n, f⟩ with
  | .ok v => .ok v.val
  | .err v => .err v.val
  | .ub => .ub

/-- src/f90-mod/tdycoref.c:329-347, WrappedF90IsotropicTensorFunction; `tmp` is what the array `values`
contains. -/
def isotropicTensor (U : UserFn) (dim n : Nat) (x tmp f : Nat → ℝ) : Res (Nat → ℝ) :=
  match callFunction U n x tmp with
  | .ok v => .ok fun k => if k < dim*dim*n then
      (if k % (dim*dim) / dim = k % (dim*dim) % dim then v (k / (dim*dim)) else 0) else f k
  | .err _ => .err f
  | .ub => .ub

/-- src/f90-mod/tdycoref.c:349-366, WrappedF90DiagonalTensorFunction: only the diagonal is written. -/
def diagonalTensor (U : UserFn) (dim n : Nat) (x tmp f : Nat → ℝ) : Res (Nat → ℝ) :=
  match callFunction U n x tmp with
  | .ok v => .ok fun k => if k < dim*dim*n ∧ k % (dim*dim) / dim = k % (dim*dim) % dim then
      v (dim*(k / (dim*dim)) + k % (dim*dim) / dim) else f k
  | .err _ => .err f
  | .ub => .ub

/-! ## Constructors of meshes -/

/-- The variables of src/tdycore.c that decide where meshes come from: the constructor given from Fortran
is one for all objects. -/
structure Meshes where
  /-- `create_dm_f90_` (src/tdycore.c:360) -/
  ctor : Option Nat
  /-- the constructor that made the mesh of an object: `some none` for the default mesh -/
  made : Nat → Option (Option Nat)

/-- The calls that matter for meshes. -/
inductive MeshCall where
  | setConstructor (obj : Nat) (c : Nat)
  | setFromOptions (obj : Nat)

/-- src/tdycore.c:361-366, TDySetDMConstructorF90, and src/tdycore.c:659-694, the part of
TDySetFromOptions that makes the mesh, when none is read from a file and no constructor was given
from C. -/
def meshStep (m : Meshes) : MeshCall → Meshes
  | .setConstructor _ c => ⟨some c, m.made⟩
  | .setFromOptions o =>
    match m.made o with
    | some _ => m
    | none => ⟨m.ctor, fun o' => if o' = o then some m.ctor else m.made o'⟩

/-- A program. -/
def meshRun (m : Meshes) (cs : List MeshCall) : Meshes := cs.foldl meshStep m

/-- Before the first call. -/
def noMeshes : Meshes := ⟨none, fun _ => none⟩

/-! ## Constants -/

/-- The modes, methods and density laws a Fortran program has names for (src/f90-mod/tdycore.h:13-52). -/
inductive Name where
  | RICHARDS | TH
  | MPFA_O | MPFA_O_DAE | MPFA_O_TRANSIENT_VAR | BDM | WY
  | WATER_DENSITY_CONSTANT | WATER_DENSITY_EXPONENTIAL
  deriving DecidableEq

/-- src/f90-mod/tdycore.h:21-22, 32, 42: their values. -/
def Name.value : Name → Nat
  | .RICHARDS => 0 | .TH => 1
  | .MPFA_O => 0 | .MPFA_O_DAE => 1 | .MPFA_O_TRANSIENT_VAR => 2 | .BDM => 3 | .WY => 4
  | .WATER_DENSITY_CONSTANT => 0 | .WATER_DENSITY_EXPONENTIAL => 1

/-- include/tdycore.h:11-18: the mode with a number in C. -/
def modeOf : Nat → Option Mode
  | 0 => some .richards | 1 => some .th | 2 => some .salinity | _ => none

/-- include/tdycore.h:23-38: the method with a number in C. -/
def discOf : Nat → Option Disc
  | 0 => some .mpfaO | 1 => some .mpfaODae | 2 => some .mpfaOTransientVar | 3 => some .bdm
  | 4 => some .wy | 5 => some .fvTpf | _ => none

/-- include/tdycore.h:103-107: the density law with a number in C. -/
def densityOf : Nat → Option RhoType
  | 0 => some .constant | 1 => some .exponential | 2 => some .batzleAndWang | _ => none

end TDy.Fortran
