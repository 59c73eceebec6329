import Mathlib.Analysis.SpecialFunctions.Trigonometric.Basic
import Verif.Basic
import Verif.Loop

/-!
# Model of the verification problems of demo/steady/steady.c and demo/transient/transient.c

The program `steady` hands the library a permeability, a pressure on the boundary, a velocity on
the boundary and a source term, chosen by `-paper`, `-dim` and `-problem`; the pressure is the
exact solution against which the answers of the library are compared.  Each function takes the
number of points, the coordinates of the points and the array it writes.

Simplified: numbers are real numbers and PETSC_PI is the number π; the local arrays `K[4*n]`,
`K[9*n]`, of which every entry is written before it is read, start with zeros here.
-/

namespace TDy.Demo

open TDy

noncomputable section

/-- `void f(PetscInt n, PetscReal *x, PetscReal *out)`: the contents of `out` after the call. -/
abbrev Fn := Nat → (Nat → ℝ) → (Nat → ℝ) → (Nat → ℝ)

/-- demo/steady/steady.c 6-12: `PermTest2D` -/
def permTest2D : Fn := fun n _x K =>
  forN n (fun i K =>
    let K := wr K (4 * i) 5
    let K := wr K (4 * i + 1) 1
    let K := wr K (4 * i + 2) 1
    wr K (4 * i + 3) 2) K

/-- demo/steady/steady.c 14-21: `PermTest3D` -/
def permTest3D : Fn := fun n _x K =>
  forN n (fun i K =>
    let K := wr K (9 * i) 4.321
    let K := wr K (9 * i + 1) 1
    let K := wr K (9 * i + 2) 0.5
    let K := wr K (9 * i + 3) 1
    let K := wr K (9 * i + 4) 1.234
    let K := wr K (9 * i + 5) 1
    let K := wr K (9 * i + 6) 0.5
    let K := wr K (9 * i + 7) 1
    wr K (9 * i + 8) 1.1) K

/-- demo/steady/steady.c 25-29: `PressureConstant` -/
def pressureConstant : Fn := fun n _x p => forN n (fun i p => wr p i 3.14) p

/-- demo/steady/steady.c 31-37: `VelocityConstant`; three entries for each point, in two dimensions as well. -/
def velocityConstant : Fn := fun n _x v =>
  forN n (fun i v => wr (wr (wr v (3 * i) 0) (3 * i + 1) 0) (3 * i + 2) 0) v

/-- demo/steady/steady.c 39-43: `ForcingConstant` -/
def forcingConstant : Fn := fun n _x f => forN n (fun i f => wr f i 0) f

/-- demo/steady/steady.c 47-52: `PressureQuadratic2D` -/
def pressureQuadratic2D : Fn := fun n x p =>
  forN n (fun i p =>
    let X := x (2 * i)
    let Y := x (2 * i + 1)
    wr p i (3.14 + X * (1 - X) + Y * (1 - Y))) p

/-- demo/steady/steady.c 54-63: `VelocityQuadratic2D` -/
def velocityQuadratic2D : Fn := fun n x v =>
  let K := permTest2D n x (fun _ => 0)
  forN n (fun i v =>
    let X := x (2 * i)
    let Y := x (2 * i + 1)
    let v := wr v (2 * i) (-K (4 * i) * (1 - 2 * X) - K (4 * i + 1) * (1 - 2 * Y))
    wr v (2 * i + 1) (-K (4 * i + 2) * (1 - 2 * X) - K (4 * i + 3) * (1 - 2 * Y))) v

/-- demo/steady/steady.c 65-72: `ForcingQuadratic2D` -/
def forcingQuadratic2D : Fn := fun n x f =>
  let K := permTest2D n x (fun _ => 0)
  forN n (fun i f => wr f i (2 * K (4 * i) + 2 * K (4 * i + 3))) f

/-- demo/steady/steady.c 74-79: `PressureQuadratic3D` -/
def pressureQuadratic3D : Fn := fun n x p =>
  forN n (fun i p =>
    let X := x (3 * i)
    let Y := x (3 * i + 1)
    let Z := x (3 * i + 2)
    wr p i (3.14 + X * (1 - X) + Y * (1 - Y) + Z * (1 - Z))) p

/-- demo/steady/steady.c 81-91: `VelocityQuadratic3D` -/
def velocityQuadratic3D : Fn := fun n x v =>
  let K := permTest3D n x (fun _ => 0)
  forN n (fun i v =>
    let X := x (3 * i)
    let Y := x (3 * i + 1)
    let Z := x (3 * i + 2)
    let v := wr v (3 * i + 0) (-K (9 * i) * (1 - 2 * X) - K (9 * i + 1) * (1 - 2 * Y)
      - K (9 * i + 2) * (1 - 2 * Z))
    let v := wr v (3 * i + 1) (-K (9 * i + 3) * (1 - 2 * X) - K (9 * i + 4) * (1 - 2 * Y)
      - K (9 * i + 5) * (1 - 2 * Z))
    wr v (3 * i + 2) (-K (9 * i + 6) * (1 - 2 * X) - K (9 * i + 7) * (1 - 2 * Y)
      - K (9 * i + 8) * (1 - 2 * Z))) v

/-- demo/steady/steady.c 93-100: `ForcingQuadratic3D`; it reads `Ki[3]`. -/
def forcingQuadratic3D : Fn := fun n x f =>
  let K := permTest3D n x (fun _ => 0)
  forN n (fun i f => wr f i (2 * (K (9 * i) + K (9 * i + 3) + K (9 * i + 8)))) f

/-- demo/steady/steady.c 106-112: `PermWheeler2006_1` -/
def permWheeler2006_1 : Fn := fun n _x K =>
  forN n (fun i K =>
    let K := wr K (4 * i) 5
    let K := wr K (4 * i + 1) 1
    let K := wr K (4 * i + 2) 1
    wr K (4 * i + 3) 2) K

/-- demo/steady/steady.c 114-121: `PressureWheeler2006_1` -/
def pressureWheeler2006_1 : Fn := fun n x f =>
  forN n (fun i f =>
    let X := x (2 * i)
    let Y := x (2 * i + 1)
    let f := wr f i ((1 - X) ^ 4)
    let f := wr f i (f i + (1 - Y) ^ 3 * (1 - X))
    wr f i (f i + Real.sin (1 - Y) * Real.cos (1 - X))) f

/-- demo/steady/steady.c 123-138: `VelocityWheeler2006_1` -/
def velocityWheeler2006_1 : Fn := fun n x v =>
  let K := permWheeler2006_1 n x (fun _ => 0)
  forN n (fun i v =>
    let X := x (2 * i)
    let Y := x (2 * i + 1)
    let vx := -4 * (1 - X) ^ 3
    let vx := vx + -((1 - Y) ^ 3)
    let vx := vx + Real.sin (Y - 1) * Real.sin (X - 1)
    let vy := -3 * (1 - Y) ^ 2 * (1 - X)
    let vy := vy + -Real.cos (X - 1) * Real.cos (Y - 1)
    let v := wr v (2 * i) (-(K (4 * i) * vx + K (4 * i + 1) * vy))
    wr v (2 * i + 1) (-(K (4 * i + 2) * vx + K (4 * i + 3) * vy))) v

/-- demo/steady/steady.c 140-151: `ForcingWheeler2006_1` -/
def forcingWheeler2006_1 : Fn := fun n x f =>
  let K := permWheeler2006_1 n x (fun _ => 0)
  forN n (fun i f =>
    let X := x (2 * i)
    let Y := x (2 * i + 1)
    let f := wr f i (-K (4 * i) * (12 * (1 - X) ^ 2 + Real.sin (Y - 1) * Real.cos (X - 1)))
    let f := wr f i (f i + -K (4 * i + 1) * (3 * (1 - Y) ^ 2 + Real.sin (X - 1) * Real.cos (Y - 1)))
    let f := wr f i (f i + -K (4 * i + 2) * (3 * (1 - Y) ^ 2 + Real.sin (X - 1) * Real.cos (Y - 1)))
    wr f i (f i + -K (4 * i + 3) * (-6 * (1 - X) * (Y - 1) + Real.sin (Y - 1) * Real.cos (X - 1)))) f

/-- demo/steady/steady.c 155-164: `PermWheeler2006_2` -/
def permWheeler2006_2 : Fn := fun n x K =>
  forN n (fun i K =>
    let X := x (2 * i)
    let Y := x (2 * i + 1)
    let K := wr K (4 * i) (4 + (X + 2) ^ 2 + Y ^ 2)
    let K := wr K (4 * i + 1) (1 + Real.sin (X * Y))
    let K := wr K (4 * i + 2) (K (4 * i + 1))
    wr K (4 * i + 3) 2) K

/-- demo/steady/steady.c 166-173: `PressureWheeler2006_2` -/
def pressureWheeler2006_2 : Fn := fun n x f =>
  forN n (fun i f =>
    let X := x (2 * i)
    let Y := x (2 * i + 1)
    let sx := Real.sin (3 * Real.pi * X)
    let sy := Real.sin (3 * Real.pi * Y)
    wr f i (sx * sx * sy * sy)) f

/-- demo/steady/steady.c 175-185: `VelocityWheeler2006_2` -/
def velocityWheeler2006_2 : Fn := fun n x v =>
  forN n (fun i v =>
    let X := x (2 * i)
    let Y := x (2 * i + 1)
    let sx := Real.sin (3 * Real.pi * X)
    let sy := Real.sin (3 * Real.pi * Y)
    let cx := Real.cos (3 * Real.pi * X)
    let cy := Real.cos (3 * Real.pi * Y)
    let v := wr v (2 * i) (-6 * Real.pi * ((Real.sin (X * Y) + 1) * sx * cy
      + (Y * Y + (X + 2) ^ 2 + 4) * sy * cx) * sx * sy)
    wr v (2 * i + 1) (-6 * Real.pi * ((Real.sin (X * Y) + 1) * sy * cx + 2 * sx * cy) * sx * sy)) v

/-- demo/steady/steady.c 187-204: `ForcingWheeler2006_2` -/
def forcingWheeler2006_2 : Fn := fun n x f =>
  forN n (fun i f =>
    let X := x (2 * i)
    let Y := x (2 * i + 1)
    let sx := Real.sin (3 * Real.pi * X)
    let sy := Real.sin (3 * Real.pi * Y)
    let cx := Real.cos (3 * Real.pi * X)
    let cy := Real.cos (3 * Real.pi * Y)
    let f := wr f i (-12 * Real.pi * (Real.sin (X * Y) + 1) * sx * sy * cx * cy)
    let f := wr f i (f i + 3 * Real.pi * (Y * Y + (X + 2) ^ 2 + 4) * sx * sx * sy * sy)
    let f := wr f i (f i - 3 * Real.pi * (Y * Y + (X + 2) ^ 2 + 4) * sy * sy * cx * cx)
    let f := wr f i (f i + 6 * Real.pi * sx * sx * sy * sy)
    let f := wr f i (f i - 6 * Real.pi * sx * sx * cy * cy)
    let f := wr f i (f i - X * sx * sy * sy * cx * Real.cos (X * Y))
    let f := wr f i (f i - Y * sx * sx * sy * cy * Real.cos (X * Y))
    let f := wr f i (f i - 2 * (X + 2) * sx * sy * sy * cx)
    wr f i (f i * (6 * Real.pi))) f

/-- demo/steady/steady.c 210-216: `PermWheeler2012_1` -/
def permWheeler2012_1 : Fn := fun n _x K =>
  forN n (fun i K =>
    let K := wr K (4 * i) 2
    let K := wr K (4 * i + 1) 1.25
    let K := wr K (4 * i + 2) 1.25
    wr K (4 * i + 3) 3) K

/-- demo/steady/steady.c 218-225: `PressureWheeler2012_1` -/
def pressureWheeler2012_1 : Fn := fun n x f =>
  forN n (fun i f =>
    let X := x (2 * i)
    let Y := x (2 * i + 1)
    let sx := Real.sin (3 * Real.pi * X)
    let sy := Real.sin (3 * Real.pi * Y)
    wr f i (sx * sx * sy * sy)) f

/-- demo/steady/steady.c 227-243: `VelocityWheeler2012_1`; every point writes `v[0]` and `v[1]`. -/
def velocityWheeler2012_1 : Fn := fun n x v =>
  let K := permWheeler2012_1 n x (fun _ => 0)
  forN n (fun i v =>
    let X := x (2 * i)
    let Y := x (2 * i + 1)
    let sx := Real.sin (3 * Real.pi * X)
    let sy := Real.sin (3 * Real.pi * Y)
    let cx := Real.cos (3 * Real.pi * X)
    let cy := Real.cos (3 * Real.pi * Y)
    let px := 6 * Real.pi * sx * sy * sy * cx
    let py := 6 * Real.pi * sx * sx * sy * cy
    let v := wr v 0 (-(K (4 * i) * px + K (4 * i + 1) * py))
    wr v 1 (-(K (4 * i + 2) * px + K (4 * i + 3) * py))) v

/-- demo/steady/steady.c 245-263: `ForcingWheeler2012_1` -/
def forcingWheeler2012_1 : Fn := fun n x f =>
  let K := permWheeler2012_1 n x (fun _ => 0)
  forN n (fun i f =>
    let X := x (2 * i)
    let Y := x (2 * i + 1)
    let sx := Real.sin (3 * Real.pi * X)
    let sy := Real.sin (3 * Real.pi * Y)
    let cx := Real.cos (3 * Real.pi * X)
    let cy := Real.cos (3 * Real.pi * Y)
    let f := wr f i (K (4 * i) * sx * sx * sy * sy)
    let f := wr f i (f i - K (4 * i) * sy * sy * cx * cx)
    let f := wr f i (f i - K (4 * i + 1) * (Real.cos (6 * Real.pi * (X - Y))
      - Real.cos (6 * Real.pi * (X + Y))) * 0.25)
    let f := wr f i (f i - K (4 * i + 2) * (Real.cos (6 * Real.pi * (X - Y))
      - Real.cos (6 * Real.pi * (X + Y))) * 0.25)
    let f := wr f i (f i + K (4 * i + 3) * sx * sx * sy * sy)
    let f := wr f i (f i - K (4 * i + 3) * sx * sx * cy * cy)
    wr f i (f i * (18 * Real.pi * Real.pi))) f

/-- demo/steady/steady.c 4 and 267-274: `alpha` and `PermWheeler2012_2` -/
def permWheeler2012_2 (alpha : ℝ) : Fn := fun n _x K =>
  forN n (fun i K =>
    let K := wr K (9 * i) alpha
    let K := wr K (9 * i + 1) 1
    let K := wr K (9 * i + 2) 1
    let K := wr K (9 * i + 3) 1
    let K := wr K (9 * i + 4) 2
    let K := wr K (9 * i + 5) 1
    let K := wr K (9 * i + 6) 1
    let K := wr K (9 * i + 7) 1
    wr K (9 * i + 8) 2) K

/-- demo/steady/steady.c 276-285: `PressureWheeler2012_2` -/
def pressureWheeler2012_2 : Fn := fun n x f =>
  forN n (fun i f =>
    let X := x (3 * i)
    let Y := x (3 * i + 1)
    let Z := x (3 * i + 2)
    let X2 := X * X
    let Y2 := Y * Y
    let Z2 := Z * Z
    let Xm12 := (X - 1) ^ 2
    let Ym12 := (Y - 1) ^ 2
    let Zm12 := (Z - 1) ^ 2
    wr f i (X2 * Y2 * Z2 * Xm12 * Ym12 * Zm12)) f

/-- demo/steady/steady.c 287-310: `VelocityWheeler2012_2` -/
def velocityWheeler2012_2 (alpha : ℝ) : Fn := fun n x v =>
  let K := permWheeler2012_2 alpha n x (fun _ => 0)
  forN n (fun i v =>
    let X := x (3 * i)
    let Y := x (3 * i + 1)
    let Z := x (3 * i + 2)
    let X2 := X * X
    let Y2 := Y * Y
    let Z2 := Z * Z
    let Xm12 := (X - 1) ^ 2
    let Ym12 := (Y - 1) ^ 2
    let Zm12 := (Z - 1) ^ 2
    let a1 := 2 * X * (X - 1) * (2 * X - 1)
    let b1 := 2 * Y * (Y - 1) * (2 * Y - 1)
    let c1 := 2 * Z * (Z - 1) * (2 * Z - 1)
    let px := a1 * Y2 * Ym12 * Z2 * Zm12
    let py := X2 * Xm12 * b1 * Z2 * Zm12
    let pz := X2 * Xm12 * Y2 * Ym12 * c1
    let v := wr v (3 * i) (-K (9 * i) * px - K (9 * i + 1) * py - K (9 * i + 2) * pz)
    let v := wr v (3 * i + 1) (-K (9 * i + 3) * px - K (9 * i + 4) * py - K (9 * i + 5) * pz)
    wr v (3 * i + 2) (-K (9 * i + 6) * px - K (9 * i + 7) * py - K (9 * i + 8) * pz)) v

/-- demo/steady/steady.c 312-336: `ForcingWheeler2012_2` -/
def forcingWheeler2012_2 (alpha : ℝ) : Fn := fun n x f =>
  let K := permWheeler2012_2 alpha n x (fun _ => 0)
  forN n (fun i f =>
    let X := x (3 * i)
    let Y := x (3 * i + 1)
    let Z := x (3 * i + 2)
    let X2 := X * X
    let Y2 := Y * Y
    let Z2 := Z * Z
    let Xm12 := (X - 1) ^ 2
    let Ym12 := (Y - 1) ^ 2
    let Zm12 := (Z - 1) ^ 2
    let a1 := 2 * X * (X - 1) * (2 * X - 1)
    let b1 := 2 * Y * (Y - 1) * (2 * Y - 1)
    let c1 := 2 * Z * (Z - 1) * (2 * Z - 1)
    let a2 := 12 * X2 - 12 * X + 2
    let b2 := 12 * Y2 - 12 * Y + 2
    let c2 := 12 * Z2 - 12 * Z + 2
    wr f i (
      -K (9 * i) * a2 * Y2 * Ym12 * Z2 * Zm12 - K (9 * i + 1) * a1 * b1 * Z2 * Zm12
        - K (9 * i + 2) * a1 * Y2 * Ym12 * c1 +
      -K (9 * i + 3) * a1 * b1 * Z2 * Zm12 - K (9 * i + 4) * X2 * Xm12 * b2 * Z2 * Zm12
        - K (9 * i + 5) * X2 * Xm12 * b1 * c1 +
      -K (9 * i + 6) * a1 * Y2 * Ym12 * c1 - K (9 * i + 7) * X2 * Xm12 * b1 * c1
        - K (9 * i + 8) * X2 * Xm12 * Y2 * Ym12 * c2)) f

/-- demo/steady/steady.c 340-345: `Pressure3` -/
def pressure3 : Fn := fun n x f =>
  forN n (fun i f =>
    let X := x (3 * i)
    let Y := x (3 * i + 1)
    let Z := x (3 * i + 2)
    wr f i (Real.cos X * Real.cos Y * Real.cos Z)) f

/-- demo/steady/steady.c 347-363: `Velocity3` -/
def velocity3 (alpha : ℝ) : Fn := fun n x v =>
  let K := permWheeler2012_2 alpha n x (fun _ => 0)
  forN n (fun i v =>
    let X := x (3 * i)
    let Y := x (3 * i + 1)
    let Z := x (3 * i + 2)
    let v := wr v (3 * i) (K (9 * i) * Real.sin X * Real.cos Y * Real.cos Z +
      K (9 * i + 1) * Real.sin Y * Real.cos X * Real.cos Z +
      K (9 * i + 2) * Real.sin Z * Real.cos X * Real.cos Y)
    let v := wr v (3 * i + 1) (K (9 * i + 3) * Real.sin X * Real.cos Y * Real.cos Z +
      K (9 * i + 4) * Real.sin Y * Real.cos X * Real.cos Z +
      K (9 * i + 5) * Real.sin Z * Real.cos X * Real.cos Y)
    wr v (3 * i + 2) (K (9 * i + 6) * Real.sin X * Real.cos Y * Real.cos Z +
      K (9 * i + 7) * Real.sin Y * Real.cos X * Real.cos Z +
      K (9 * i + 8) * Real.sin Z * Real.cos X * Real.cos Y)) v

/-- demo/steady/steady.c 365-381: `Forcing3` -/
def forcing3 (alpha : ℝ) : Fn := fun n x f =>
  let K := permWheeler2012_2 alpha n x (fun _ => 0)
  forN n (fun i f =>
    let X := x (3 * i)
    let Y := x (3 * i + 1)
    let Z := x (3 * i + 2)
    wr f i (K (9 * i) * Real.cos X * Real.cos Y * Real.cos Z -
      K (9 * i + 1) * Real.sin X * Real.sin Y * Real.cos Z -
      K (9 * i + 2) * Real.sin X * Real.sin Z * Real.cos Y -
      K (9 * i + 3) * Real.sin X * Real.sin Y * Real.cos Z +
      K (9 * i + 4) * Real.cos X * Real.cos Y * Real.cos Z -
      K (9 * i + 5) * Real.sin Y * Real.sin Z * Real.cos X -
      K (9 * i + 6) * Real.sin X * Real.sin Z * Real.cos Y -
      K (9 * i + 7) * Real.sin Y * Real.sin Z * Real.cos X +
      K (9 * i + 8) * Real.cos X * Real.cos Y * Real.cos Z)) f

/-- The four functions handed to the library (demo/steady/steady.c 763-863). -/
structure Problem where
  perm : Fn
  forcing : Fn
  pressure : Fn
  velocity : Fn

/-- demo/steady/steady.c 750-752: the answers of the three comparisons of `paper`. -/
inductive Paper where
  | wheeler2006 | wheeler2012 | column | other
  deriving DecidableEq

/-- What the choice ends with: the run stops with an error, nothing is set, or four functions. -/
inductive Choice where
  | error
  | nothing
  | set (p : Problem)

/-- demo/steady/steady.c 763-788: `-paper wheeler2006` -/
def choose2006 (dim problem : Int) : Choice :=
  if dim ≠ 2 then .error
  else if problem = 0 then
    .set ⟨permTest2D, forcingConstant, pressureConstant, velocityConstant⟩
  else if problem = 1 then
    .set ⟨permWheeler2006_1, forcingWheeler2006_1, pressureWheeler2006_1, velocityWheeler2006_1⟩
  else if problem = 2 then
    .set ⟨permWheeler2006_2, forcingWheeler2006_2, pressureWheeler2006_2, velocityWheeler2006_2⟩
  else .error

/-- demo/steady/steady.c 789-811: `-paper wheeler2012` -/
def choose2012 (alpha : ℝ) (dim problem : Int) : Choice :=
  if problem = 1 then
    if dim ≠ 2 then .error
    else .set ⟨permWheeler2012_1, forcingWheeler2012_1, pressureWheeler2012_1,
      velocityWheeler2012_1⟩
  else if problem = 2 then
    if dim ≠ 3 then .error
    else .set ⟨permWheeler2012_2 alpha, forcingWheeler2012_2 alpha, pressureWheeler2012_2,
      velocityWheeler2012_2 alpha⟩
  else .error

/-- demo/steady/steady.c 812-863: any other paper. -/
def chooseOther (alpha : ℝ) (dim problem : Int) : Choice :=
  if problem = 1 then
    if dim = 2 then .set ⟨permTest2D, forcingConstant, pressureConstant, velocityConstant⟩
    else .set ⟨permWheeler2012_2 alpha, forcingConstant, pressureConstant, velocityConstant⟩
  else if problem = 2 then
    if dim = 2 then
      .set ⟨permTest2D, forcingQuadratic2D, pressureQuadratic2D, velocityQuadratic2D⟩
    else .set ⟨permWheeler2012_2 alpha, forcingWheeler2012_2 alpha, pressureWheeler2012_2,
      velocityWheeler2012_2 alpha⟩
  else if problem = 3 then
    if dim = 2 then
      .set ⟨permTest2D, forcingWheeler2006_1, pressureWheeler2006_1, velocityWheeler2006_1⟩
    else .set ⟨permWheeler2012_2 alpha, forcing3 alpha, pressure3, velocity3 alpha⟩
  else if problem = 4 then
    if dim = 2 then .set ⟨permWheeler2012_1, forcingWheeler2012_1, pressureWheeler2012_1,
      velocityWheeler2012_1⟩
    else .nothing
  else .nothing

/-- demo/steady/steady.c 763-863: the functions of the run. -/
def choose (paper : Paper) (alpha : ℝ) (dim problem : Int) : Choice :=
  match paper with
  | .wheeler2006 => choose2006 dim problem
  | .wheeler2012 => choose2012 alpha dim problem
  | _ => chooseOther alpha dim problem

/-- demo/steady/steady.c 721, 743, 750-752: the array `paper` is not initialised; without the option `-paper`
it keeps what the memory contained (`garbage`). -/
def paperOf (option : Option Paper) (garbage : Paper) : Paper := option.getD garbage

end

end TDy.Demo
