import Verif.Model.Fortran
import Verif.Loop

/-!
# Model of the functions in the Fortran demo programs (demo/transient/*.F90)

Functions get the number of points, the coordinates and the output as arrays with extents, as in
`Verif/Model/Fortran.lean`.  Reads beyond an extent, and assignments of an array to one of another
extent, are undefined.
-/

namespace TDy.Fortran

open TDy

/-- demo/transient/fv_tpff90.F90:65-69, zz_top, counted from 0. -/
noncomputable def zzTop : Nat → ℝ
  | 0 => 8.25 | 1 => 7.625 | 2 => 7.5 | 3 => 8.5 | _ => 9.625

open Classical in
/-- demo/transient/fv_tpff90.F90:56-78, is_coordinate_top. -/
noncomputable def isCoordinateTop (x1 x2 x3 : ℝ) : Bool :=
  forN 5 (fun ii top =>
    if x1 ≠ 1 ∧ x1 ≠ 6 ∧ x2 ≠ 1 ∧ x2 ≠ 2 ∧ x3 = zzTop ii then true else top) false

/-- The loop of the functions below, `do i = 0, n-1`: the coordinates of point `i` are read and one number
is assigned to the whole output. -/
noncomputable def assignInLoop (g : ℝ → ℝ → ℝ → ℝ) (x : View) : Nat → View → Res View
  | 0, f => .ok f
  | i + 1, f =>
    match assignInLoop g x i f with
    | .ok f' =>
      match x.get (3*i), x.get (3*i + 1), x.get (3*i + 2) with
      | .ok x1, .ok x2, .ok x3 => .ok (f'.fill (g x1 x2 x3))
      | _, _, _ => .ub
    | .err f' => .err f'
    | .ub => .ub

/-- demo/transient/fv_tpff90.F90:118-153, PressureFunction. -/
noncomputable def tpfPressure : UserFn := fun n x f =>
  assignInLoop (fun x1 x2 x3 => if isCoordinateTop x1 x2 x3 then 111325 else 70000) x n f

/-- demo/transient/fv_tpff90.F90:155-185, PressureBCTypeFunction; types of conditions are their numbers
(include/finclude/tdycore.h:7-9). -/
noncomputable def tpfPressureType : UserFn := fun n x f =>
  assignInLoop (fun x1 x2 x3 => if isCoordinateTop x1 x2 x3 then 2 else 1) x n (f.fill 1)

open Classical in
/-- demo/transient/transient_snes_mpfaof90.F90:106-127, PressureFunction. -/
noncomputable def snesPressure : UserFn := fun n x f =>
  assignInLoop (fun x1 x2 x3 =>
    if 0 < x1 ∧ x1 < 1 ∧ 0 < x2 ∧ x2 < 1 ∧ 0.99 < x3 then 110000 else 100000) x n f

/-- demo/transient/transient_mpfaof90.F90:20-29, PressureFunction. -/
noncomputable def steadyPressure : UserFn := fun _ _ f => .ok (f.fill 100000)

/-- demo/transient/fv_tpff90.F90:28-34, Permeability. -/
noncomputable def tpfK0 : Nat → ℝ
  | 0 => 1e-12 | 4 => 1e-12 | 8 => 1e-12 | _ => 0

/-- demo/transient/transient_snes_mpfaof90.F90:67-73, Permeability_PFLOTRAN; the same in
demo/transient/fv_tpff90.F90:91-97. -/
noncomputable def pflotranK0 : Nat → ℝ
  | 0 => 1e-12 | 4 => 1e-12 | 8 => 5e-13 | _ => 0

/-- demo/transient/transient_snes_mpfaof90.F90:28-34, Permeability; the same in
demo/transient/transient_mpfaof90.F90:12-18. -/
noncomputable def snesK0 : Nat → ℝ
  | 0 => 1e-10 | 4 => 1e-10 | 8 => 1e-10 | _ => 0

/-- demo/transient/fv_tpff90.F90:36-47 and 99-110, PermeabilityFunction and PermeabilityFunctionPFLOTRAN (the
latter also demo/transient/transient_snes_mpfaof90.F90:75-86): `K(:) = K0` with nine numbers on the right.  The programs define
them and set constants instead. -/
noncomputable def assignTensor (K0 : Nat → ℝ) : UserFn := fun _ _ f =>
  if f.extent = 9 then .ok ⟨f.extent, fun i => if i < 9 then K0 i else f.val i⟩ else .ub

end TDy.Fortran
