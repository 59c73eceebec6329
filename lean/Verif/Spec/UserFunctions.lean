import Verif.Model.UserFunctions

/-!
# What a user expects of the functions and constants they set

Nothing here mentions memory, wrappers or function pointers.
-/

namespace TDy.Api.Spec

open TDy TDy.Slots TDy.Api

/-- The function last registered under a name. -/
def registered (name : String) : List Call → Option Nat
  | [] => none
  | .register n f :: h =>
    match registered name h with
    | some g => some g
    | none => if n = name then some f else none
  | _ :: h => registered name h

/-- What was asked for a condition: a function, or a constant. -/
inductive Asked where
  | function (f : Nat)
  | constant (value : Rat)

/-- The quantity named by a setter. -/
def names : CondSetter → CondKey → Bool
  | .forcing, .forcing => true
  | .energyForcing, .energyForcing => true
  | .boundaryPressure, .boundaryPressure => true
  | .boundaryPressureType, .boundaryPressureType => true
  | .boundaryVelocity, .boundaryVelocity => true
  | .boundaryTemperature, .boundaryTemperature => true
  | .boundarySalineConcentration, .boundarySalineConc => true
  | _, _ => false

/-- After the calls `before`, the call `c` asks for `a` as the condition `k`. -/
def Asks (before : List Call) (c : Call) (k : CondKey) (a : Asked) : Prop :=
  match c with
  | .setCondition s f => names s k = true ∧ a = .function f
  | .selectCondition s name =>
    names s k = true ∧ ∃ f, registered name before = some f ∧ a = .function f
  | _ => False

/-- A name or a value on the command line asks for `a`; the name goes first. -/
def OptionAsks (before : List Call) (func : Option String) (value : Option Rat) (a : Asked) : Prop :=
  match func with
  | some name => ∃ f, registered name before = some f ∧ a = .function f
  | none => ∃ p, value = some p ∧ a = .constant p

/-- The command line asks for `a` as the condition `k`. -/
def CmdAsks (before : List Call) (c : CmdLine) (k : CondKey) (a : Asked) : Prop :=
  match k with
  | .boundaryPressure => OptionAsks before c.pressureFunc c.pressureValue a
  | .boundaryVelocity => OptionAsks before c.velocityFunc c.velocityValue a
  | .boundaryTemperature => OptionAsks before c.temperatureFunc c.temperatureValue a
  | _ => False

/-- A call that has nothing to do with condition `k`. -/
def Leaves (c : Call) (k : CondKey) : Prop :=
  match c with
  | .setCondition s _ => names s k = false
  | .selectCondition s _ => names s k = false
  | .setFromOptions _ => False
  | _ => True

/-- The same for a material property. -/
def LeavesMaterial (c : Call) (k : MatKey) : Prop :=
  match c with
  | .setMaterial _ k' _ _ => k' ≠ k
  | .setFromOptions _ => False
  | _ => True

/-- The contents of the output after asking for `a` at `n` points. -/
def Asked.gives (U : UserFns) (a : Asked) (n : Nat) (x v w : Nat → Rat) : Prop :=
  match a with
  | .function f => w = U f n x v
  | .constant p => ∀ i, w i = if i < n then p else v i

/-- The entry `(r, c)` of the 3x3 tensor of point `i`, or the value of a scalar at point `i`, that a
material setter asks for. -/
def Entrywise (U : UserFns) (kind : Kind) (a : MatValue) (n : Nat) (x v tmp w : Nat → Rat) : Prop :=
  match kind, a with
  | .scalar, .constant p => ∀ i < n, w i = p 0
  | .scalar, .function f => w = U f n x v
  | .isotropic, .constant p => ∀ i < n, ∀ r < 3, w (9*i + 3*r + r) = p 0
  | .isotropic, .function f => ∀ i < n, ∀ r < 3, w (9*i + 3*r + r) = U f n x tmp i
  | .diagonal, .constant p => ∀ i < n, ∀ r < 3, w (9*i + 3*r + r) = p r
  | .diagonal, .function f => ∀ i < n, ∀ r < 3, w (9*i + 3*r + r) = U f n x tmp (3*i + r)
  | .full, .constant p => ∀ i < n, ∀ r < 3, ∀ c < 3, w (9*i + 3*r + c) = p (3*r + c)
  | .full, .function f => w = U f n x v

end TDy.Api.Spec
