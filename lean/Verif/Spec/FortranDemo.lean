import Verif.Model.FortranDemo

/-!
# Specification: what the functions of the Fortran demo programs are meant to give
-/

namespace TDy.Fortran.Spec

open TDy TDy.Fortran

/-- A function gives `g` of the coordinates of every point, and touches nothing else. -/
def GivesEach (g : ℝ → ℝ → ℝ → ℝ) (n : Nat) (x f v : Nat → ℝ) : Prop :=
  (∀ i < n, v i = g (x (3*i)) (x (3*i + 1)) (x (3*i + 2))) ∧ ∀ i, n ≤ i → v i = f i

/-- The points of the top of the mesh: one of five heights, and off four vertical planes. -/
def OnTop (x1 x2 x3 : ℝ) : Prop :=
  x3 ∈ ({7.5, 7.625, 8.25, 8.5, 9.625} : Set ℝ) ∧ x1 ∉ ({1, 6} : Set ℝ) ∧ x2 ∉ ({1, 2} : Set ℝ)

open Classical in
/-- Pressure at a point in fv_tpff90. -/
noncomputable def tpfMeant (x1 x2 x3 : ℝ) : ℝ := if OnTop x1 x2 x3 then 111325 else 70000

open Classical in
/-- Type of condition at a point in fv_tpff90: seepage (2) on the top, no flow (1) elsewhere. -/
noncomputable def tpfTypeMeant (x1 x2 x3 : ℝ) : ℝ := if OnTop x1 x2 x3 then 2 else 1

open Classical in
/-- Pressure at a point in transient_snes_mpfaof90: higher inside the top of the unit cube. -/
noncomputable def snesMeant (x1 x2 x3 : ℝ) : ℝ :=
  if x1 ∈ Set.Ioo (0:ℝ) 1 ∧ x2 ∈ Set.Ioo (0:ℝ) 1 ∧ 0.99 < x3 then 110000 else 100000

/-- The demo functions that look at their points, each with what it is meant to give. -/
inductive DemoFn : UserFn → (ℝ → ℝ → ℝ → ℝ) → Prop
  | tpf : DemoFn tpfPressure tpfMeant
  | tpfType : DemoFn tpfPressureType tpfTypeMeant
  | snes : DemoFn snesPressure snesMeant

/-- A call with arrays as long as the points need: three coordinates and one value for each of `n`. -/
def callWhole (U : UserFn) (n : Nat) (x f : Nat → ℝ) : Res (Nat → ℝ) :=
  match U n ⟨3*n, x⟩ ⟨n, f⟩ with
  | .ok v => .ok v.val
  | .err v => .err v.val
  | .ub => .ub

end TDy.Fortran.Spec
