import Verif.Loop
import Mathlib.Data.Rat.Defs

/-!
# Model of the callback records (src/tdyconditions.c, src/materials/tdymaterialproperties.c)

`Conditions` and `MaterialProp` are records of eight (context, function, destructor) triples.
The sixteen setters have the same body with different field names, so one function with the
field as an argument models them; the two destructors differ in which fields they reset, which
is kept.  `released` is the log of destructor calls, oldest first.

Pointers are numbers; NULL is `none`.  What a callback computes is not modelled here.
-/

namespace TDy.Slots

/-- include/private/tdyconditionsimpl.h: the eight quantities of `Conditions`. -/
inductive CondKey where
  | forcing | energyForcing | salinitySource | boundaryPressure | boundaryPressureType
  | boundaryVelocity | boundaryTemperature | boundarySalineConc
  deriving DecidableEq, Repr

/-- include/private/tdymaterialpropertiesimpl.h: the eight quantities of `MaterialProp`. -/
inductive MatKey where
  | porosity | permeability | thermalConductivity | residualSaturation | soilDensity
  | soilSpecificHeat | salineDiffusivity | salineMolecularWeight
  deriving DecidableEq, Repr

/-- One triple. -/
structure Slot where
  context : Option Nat := none
  fn : Option Nat := none
  dtor : Option Nat := none
  deriving DecidableEq, Repr

/-- The record, with the log of `dtor(context)` calls. -/
structure Store (κ : Type) where
  slots : κ → Slot
  released : List (Nat × Nat) := []

/-- src/tdyconditions.c:7-12, src/materials/tdymaterialproperties.c:12-21: `TDyAlloc` zeroes the
record. -/
def Store.create {κ : Type} : Store κ := { slots := fun _ => {} }

/-- src/tdyconditions.c:32-164, src/materials/tdymaterialproperties.c:45-176: every setter. -/
def set {κ : Type} [DecidableEq κ] (s : Store κ) (k : κ) (context fn dtor : Option Nat) :
    Store κ :=
  { released :=
      match (s.slots k).context, (s.slots k).dtor with
      | some c, some d => s.released ++ [(d, c)]
      | _, _ => s.released
    slots := fun k' => if k' = k then { context := context, fn := fn, dtor := dtor }
                       else s.slots k' }

/-- src/tdyconditions.c:15-25, `ConditionsDestroy`: six of the eight quantities. -/
def conditionsDestroy (s : Store CondKey) : Store CondKey :=
  let s := set s .forcing none none none
  let s := set s .energyForcing none none none
  let s := set s .boundaryPressure none none none
  let s := set s .boundaryVelocity none none none
  let s := set s .boundaryTemperature none none none
  set s .boundarySalineConc none none none

/-- src/materials/tdymaterialproperties.c:25-38, `MaterialPropDestroy`. -/
def materialPropDestroy (s : Store MatKey) : Store MatKey :=
  let s := set s .porosity none none none
  let s := set s .permeability none none none
  let s := set s .thermalConductivity none none none
  let s := set s .residualSaturation none none none
  let s := set s .soilDensity none none none
  let s := set s .soilSpecificHeat none none none
  let s := set s .salineDiffusivity none none none
  set s .salineMolecularWeight none none none

/-- src/tdyconditions.c:166-196, src/materials/tdymaterialproperties.c:178-231: `Has…`. -/
def has {κ : Type} (s : Store κ) (k : κ) : Bool := (s.slots k).fn.isSome

/-- What evaluating a quantity does. -/
inductive Eval where
  /-- the function is called with this context -/
  | calls (fn : Nat) (context : Option Nat)
  /-- nothing is called, the output is untouched, success is returned -/
  | nothing
  /-- a call through a NULL function pointer -/
  | ub
  deriving DecidableEq, Repr

/-- src/tdyconditions.c:198-249: `ConditionsCompute…` call the function without a test. -/
def conditionsCompute (s : Store CondKey) (k : CondKey) : Eval :=
  match (s.slots k).fn with
  | some f => .calls f (s.slots k).context
  | none => .ub

/-- src/materials/tdymaterialproperties.c:239-375: `MaterialPropCompute…` test first. -/
def materialPropCompute (s : Store MatKey) (k : MatKey) : Eval :=
  match (s.slots k).fn with
  | some f => .calls f (s.slots k).context
  | none => .nothing

/-- One setter call. -/
structure SetCall (κ : Type) where
  key : κ
  context : Option Nat
  fn : Option Nat
  dtor : Option Nat
  deriving DecidableEq, Repr

/-- A sequence of setter calls. -/
def runSets {κ : Type} [DecidableEq κ] (s : Store κ) (cs : List (SetCall κ)) : Store κ :=
  cs.foldl (fun s c => set s c.key c.context c.fn c.dtor) s

/-! ## Material tensors -/

/-- src/tdyconditions.c:251-260, `ConstantBoundaryFn`, and
src/materials/tdymaterialproperties.c:419-427, `ConstantScalarWrapperFunction`: a constant at
each of `n` points. -/
def constantScalar {α : Type} (value : α) (n : Nat) (f : Nat → α) : Nat → α :=
  forN n (fun i f => wr f i value) f

/-- src/materials/tdymaterialproperties.c:441-453, `ConstantIsotropicTensorWrapperFunction`. -/
def constantIsotropic {α : Type} (dim : Nat) (value : Nat → α) (n : Nat) (f : Nat → α) : Nat → α :=
  forN n (fun i f => forN dim (fun j f => wr f (dim*dim*i + j*dim + j) (value 0)) f) f

/-- src/materials/tdymaterialproperties.c:457-471, `IsotropicTensorWrapperFunction`; `values` is
what the user's function returned. -/
def isotropic {α : Type} (dim : Nat) (values : Nat → α) (n : Nat) (f : Nat → α) : Nat → α :=
  forN n (fun i f => forN dim (fun j f => wr f (dim*dim*i + j*dim + j) (values i)) f) f

/-- src/materials/tdymaterialproperties.c:475-487, `ConstantDiagonalTensorWrapperFunction`. -/
def constantDiagonal {α : Type} (dim : Nat) (value : Nat → α) (n : Nat) (f : Nat → α) : Nat → α :=
  forN n (fun i f => forN dim (fun j f => wr f (dim*dim*i + j*dim + j) (value j)) f) f

/-- src/materials/tdymaterialproperties.c:491-505, `DiagonalTensorWrapperFunction`: the user's
vector function always returns three components per point. -/
def diagonal {α : Type} (dim : Nat) (values : Nat → α) (n : Nat) (f : Nat → α) : Nat → α :=
  forN n (fun i f => forN dim (fun j f => wr f (dim*dim*i + j*dim + j) (values (3*i + j))) f) f

/-- src/materials/tdymaterialproperties.c:509-521, `ConstantFullTensorWrapperFunction`. -/
def constantFull {α : Type} (dim : Nat) (value : Nat → α) (n : Nat) (f : Nat → α) : Nat → α :=
  forN n (fun i f => forN (dim*dim) (fun j f => wr f (dim*dim*i + j) (value j)) f) f

end TDy.Slots
