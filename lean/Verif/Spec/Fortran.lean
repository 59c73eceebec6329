import Verif.Model.Fortran
import Mathlib.Data.Finset.Defs

/-!
# Specification: what a Fortran program relies on

Written in terms of the calls of a program only.
-/

namespace TDy.Fortran.Spec

open TDy TDy.Fortran

/-- The function last set for a quantity of an object. -/
def lastSet : List Call → Nat → Slot → Option Nat
  | [], _, _ => none
  | c :: cs, o, s =>
    match lastSet cs o s, c with
    | some f, _ => some f
    | none, .set o' s' f => if o' = o ∧ s' = s then some f else none
    | none, _ => none

/-- The program only sets functions, and only of one kind, taken from `S`. -/
def SetsOnly (k : Kind) (S : Finset Nat) (cs : List Call) : Prop :=
  ∀ c ∈ cs, ∃ o s f, c = .set o s f ∧ s.kind = k ∧ f ∈ S

/-- The function last registered under a name. -/
def lastNamed : List Call → List Char → Option Nat
  | [], _ => none
  | c :: cs, n =>
    match lastNamed cs n, c with
    | some f, _ => some f
    | none, .register n' f => if n' = n then some f else none
    | none, _ => none

/-- The constructor that should make the mesh of an object: the one given for it last before its options
are set; `some none` for the default mesh, `none` if its options are not set. -/
def wantedMesh (o : Nat) : Option Nat → List MeshCall → Option (Option Nat)
  | _, [] => none
  | cur, .setConstructor o' c :: cs => wantedMesh o (if o' = o then some c else cur) cs
  | cur, .setFromOptions o' :: cs => if o' = o then some cur else wantedMesh o cur cs

/-- A function that reads coordinate `j` of point `i` and gives it as the value there. -/
def readsCoordinate (dim i j : Nat) : UserFn := fun _ x f =>
  match x.get (dim*i + j) with
  | .ok v => .ok ⟨f.extent, fun k => if k = i then v else f.val k⟩
  | _ => .ub

/-- A function that gives `c` everywhere: `f(:) = c`. -/
def fillsWith (c : ℝ) : UserFn := fun _ _ f => .ok (f.fill c)

/-- The mode a name stands for. -/
def meantMode : Name → Option Mode
  | .RICHARDS => some .richards | .TH => some .th | _ => none

/-- The method a name stands for. -/
def meantDisc : Name → Option Disc
  | .MPFA_O => some .mpfaO | .MPFA_O_DAE => some .mpfaODae
  | .MPFA_O_TRANSIENT_VAR => some .mpfaOTransientVar | .BDM => some .bdm | .WY => some .wy | _ => none

/-- The density law a name stands for. -/
def meantDensity : Name → Option RhoType
  | .WATER_DENSITY_CONSTANT => some .constant | .WATER_DENSITY_EXPONENTIAL => some .exponential | _ => none

end TDy.Fortran.Spec
