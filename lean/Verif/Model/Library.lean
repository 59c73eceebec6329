import Verif.Basic

/-!
# Model of the library-wide state (src/tdycore.c:83-257, src/tdytimers.c)

The static variables of the library: the array of shutdown functions, the table of named
functions, and the timer tables.  Static pointers are modelled by what they point to, so that
use after free is visible.

Simplifications: a shutdown function given by the user does not itself call the library;
allocation does not fail; the keys of the function table are copied (the C code stores the
caller's pointer); MPI and PETSc initialisation are not modelled.
-/

namespace TDy.Lib

/-- A static pointer: NULL, pointing to live memory, or dangling. -/
inductive Ptr (α : Type) where
  | null
  | live (a : α)
  | freed
  deriving DecidableEq, Repr

/-- The functions that can be registered for shutdown: the two the library registers itself
(src/tdytimers.c:28 `ShutDownTimers`, src/tdycore.c:213 `DestroyFunctionRegistry`) and the
user's. -/
inductive ShutFn where
  | timers
  | registry
  | user (id : Nat)
  deriving DecidableEq, Repr

/-- src/tdycore.c:83, 169-171, 210 and src/tdytimers.c:7-25: the library's static variables.
`calls` is the log of shutdown functions called, oldest first. -/
structure Lib where
  arr : Ptr (List (Option ShutFn)) := .null
  num : Nat := 0
  cap : Nat := 0
  pkgInit : Bool := false
  funcs : Ptr (List (String × Nat)) := .null
  timers : Ptr Unit := .null
  calls : List ShutFn := []
  deriving DecidableEq, Repr

/-- The program before its first library call. -/
def Lib.start : Lib := {}

/-- src/tdycore.c:183-184: store into the array; out of bounds or dangling is undefined. -/
def storeFn (l : Lib) (f : ShutFn) : Res Lib :=
  match l.arr with
  | .live a =>
    if l.num < a.length then
      .ok { l with arr := .live (a.set l.num (some f)), num := l.num + 1 }
    else .ub
  | _ => .ub

/-- src/tdycore.c:174-187, `TDyOnFinalize`. -/
def onFinalize (l : Lib) (f : ShutFn) : Res Lib :=
  match l.arr with
  | .null => storeFn { l with cap := 32, arr := .live (List.replicate 32 none) } f
  | .live a =>
    if l.num = l.cap then
      storeFn { l with cap := l.cap * 2,
                       arr := .live (a ++ List.replicate (l.cap * 2 - a.length) none) } f
    else storeFn l f
  | .freed => .ub

/-- src/tdytimers.c:35-62, `TDyInitTimers`: creates the tables if the pointers are NULL, adds
the profiling stages (which reads the stage table), registers the shutdown function. -/
def initTimers (l : Lib) : Res Lib :=
  match l.timers with
  | .freed => .ub
  | _ => onFinalize { l with timers := .live () } .timers

/-- src/tdycore.c:86-140, `TDyInit` (and `TDyInitNoArguments`, 145-158). -/
def init (l : Lib) : Res Lib :=
  if l.pkgInit then .ok l
  else (initTimers l).bind fun l => .ok { l with pkgInit := true }

/-- src/tdycore.c:223-234, `TDyRegisterFunction`: create the table on first use (and register
its destruction), then insert or overwrite. -/
def registerFn (l : Lib) (name : String) (f : Nat) : Res Lib :=
  match l.funcs with
  | .null =>
    (onFinalize { l with funcs := .live [] } .registry).bind fun l =>
      .ok { l with funcs := .live [(name, f)] }
  | .live m => .ok { l with funcs := .live ((name, f) :: m.filter (fun p => p.1 ≠ name)) }
  | .freed => .ub

/-- What `TDyGetFunction` gives its caller. -/
inductive GetResult where
  /-- 0 is returned and `*f` is the given function -/
  | found (f : Nat)
  /-- an error code is returned and `*f` is untouched -/
  | notFound
  | ub
  deriving DecidableEq, Repr

/-- src/tdycore.c:239-257, `TDyGetFunction`. -/
def getFn (l : Lib) (name : String) : GetResult :=
  match l.funcs with
  | .null => .notFound
  | .live m =>
    match m.find? (fun p => p.1 = name) with
    | some p => .found p.2
    | none => .notFound
  | .freed => .ub

/-- The effect of one shutdown function on the library: src/tdycore.c:213-215 and
src/tdytimers.c:28-33, 164-178 free their tables without clearing the pointers. -/
def callFn (l : Lib) (f : ShutFn) : Res Lib :=
  let l := { l with calls := l.calls ++ [f] }
  match f with
  | .user _ => .ok l
  | .registry =>
    match l.funcs with
    | .freed => .ub
    | .null => .ok l
    | .live _ => .ok { l with funcs := .freed }
  | .timers =>
    match l.timers with
    | .live _ => .ok { l with timers := .freed }
    | _ => .ub

/-- src/tdycore.c:194-196: `for (i = num-1; i >= 0; --i) shutdown_funcs_[i]();` — the argument
is `i + 1`. -/
def callDown (a : List (Option ShutFn)) : Nat → Lib → Res Lib
  | 0, l => .ok l
  | i + 1, l =>
    match a[i]? with
    | some (some f) => (callFn l f).bind (callDown a i)
    | _ => .ub

/-- src/tdycore.c:189-205, `TDyFinalize`: the array is freed, but the pointer, the count and
the capacity keep their values. -/
def finalize (l : Lib) : Res Lib :=
  match l.arr with
  | .null => .ok { l with pkgInit := false }
  | .freed => .ub
  | .live a =>
    (callDown a l.num l).bind fun l => .ok { l with arr := .freed, pkgInit := false }

/-- The library-wide calls, except `TDyFinalize`. -/
inductive Op where
  | init
  | onFinalize (id : Nat)
  | register (name : String) (f : Nat)
  deriving DecidableEq, Repr

/-- One library-wide call. -/
def step (l : Lib) : Op → Res Lib
  | .init => init l
  | .onFinalize id => onFinalize l (.user id)
  | .register n f => registerFn l n f

/-- A sequence of library-wide calls. -/
def run : Lib → List Op → Res Lib
  | l, [] => .ok l
  | l, o :: os => (step l o).bind fun l => run l os

end TDy.Lib
