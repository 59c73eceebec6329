import Mathlib.Analysis.SpecialFunctions.Trigonometric.Basic
import Verif.Basic
import Verif.Loop
import Verif.Model.SteadyDemo

/-!
# Model of the meshes and the starting values of the demonstration programs

demo/steady/steady.c moves the vertices of its meshes by three fixed maps, demo/transient/transient.c
moves the inner vertices at random, and demo/salinity/salinity.c fills its starting vector cell by
cell.

Simplified: the coordinates of vertex number `v` are stored at `dim * v` (the section of a mesh of
PETSc without other unknowns); numbers are real numbers.  Not modelled: `PerturbVerticesRandom`,
which is never called because `perturb` stays false (steady.c 726, 876).
-/

namespace TDy.Demo

open TDy

noncomputable section

/-- demo/steady/steady.c 437-440: the two coordinates of one vertex. -/
def smooth2 (x y : ℝ) : ℝ × ℝ :=
  (x + 0.06 * Real.sin (2.0 * Real.pi * x) * Real.sin (2.0 * Real.pi * y),
   y - 0.05 * Real.sin (2.0 * Real.pi * x) * Real.sin (2.0 * Real.pi * y))

/-- demo/steady/steady.c 441-446: the three coordinates of one vertex. -/
def smooth3 (x y z : ℝ) : ℝ × ℝ × ℝ :=
  (x + 0.03 * Real.sin (3 * Real.pi * x) * Real.cos (3 * Real.pi * y) * Real.cos (3 * Real.pi * z),
   y - 0.04 * Real.cos (3 * Real.pi * x) * Real.sin (3 * Real.pi * y) * Real.cos (3 * Real.pi * z),
   z + 0.05 * Real.cos (3 * Real.pi * x) * Real.cos (3 * Real.pi * y) * Real.sin (3 * Real.pi * z))

/-- demo/steady/steady.c 421-450: `PerturbVerticesSmooth` for the `nv` vertices of the mesh. -/
def perturbVerticesSmooth (dim nv : Nat) (coords : Nat → ℝ) : Nat → ℝ :=
  forN nv (fun v coords =>
    let o := dim * v
    if dim = 2 then
      let p := smooth2 (coords o) (coords (o + 1))
      wr (wr coords o p.1) (o + 1) p.2
    else
      let p := smooth3 (coords o) (coords (o + 1)) (coords (o + 2))
      wr (wr (wr coords o p.1) (o + 1) p.2.1) (o + 2) p.2.2) coords

/-- demo/steady/steady.c 642-646: the height of a vertex of the mesh of Wheeler 2006, problem 2. -/
def height2006 (x y : ℝ) : ℝ :=
  if x < 0.5 then (-4.8 * x * x + 2 * x + 0.7) * y else (0.75 * x + 0.125) * y

/-- demo/steady/steady.c 625-652: `GeometryWheeler2006_2` -/
def geometryWheeler2006_2 (dim nv : Nat) (coords : Nat → ℝ) : Nat → ℝ :=
  forN nv (fun v coords =>
    let o := dim * v
    wr coords (o + 1) (height2006 (coords o) (coords (o + 1)))) coords

/-- demo/steady/steady.c 654-676: `GeometryColumn` -/
def geometryColumn (dim nv : Nat) (coords : Nat → ℝ) : Nat → ℝ :=
  forN nv (fun v coords =>
    let o := dim * v
    wr coords (o + 2) (coords (o + 2) + (0.05 * coords o + 0.15 * coords (o + 1)))) coords

/-- demo/steady/steady.c 870-883: what happens to the coordinates after the setup. -/
def moveVertices (paper : Paper) (problem : Int) (dim nv : Nat) (coords : Nat → ℝ) : Nat → ℝ :=
  let coords := if paper = .wheeler2006 ∧ (problem = 2 ∨ problem = 0)
    then geometryWheeler2006_2 dim nv coords else coords
  let coords := if paper = .column then geometryColumn dim nv coords else coords
  if paper = .wheeler2012 then perturbVerticesSmooth dim nv coords else coords

/-- The arguments of `DMPlexCreateBoxMesh`: cells and lengths. -/
structure Box where
  cells : Int × Int × Int
  upper : ℝ × ℝ × ℝ

/-- demo/steady/steady.c 689-711: `CreateDM` without a mesh file. -/
def createDM (column : Bool) (N : Int) : Box :=
  if column then { cells := (1, 1, N), upper := (10, 10, 1) }
  else { cells := (N, N, N), upper := (1, 1, 1) }

/-- demo/steady/steady.c 752-757: the record handed to `CreateDM` is written without its field
`column`, which is therefore zero. -/
def meshOf (_paper : Paper) (N : Int) : Box := createDM false N

/-- demo/transient/transient.c 57-62: one vertex in space; `r` is `rand()/RAND_MAX`. -/
def perturbOne (h r z : ℝ) : ℝ := z + (r - 0.5) * h * 0.8

/-- demo/transient/transient.c 58-60: the vertices that are moved. -/
def inside (x y z : ℝ) : Prop :=
  x > -0.5 ∧ x < 0.5 ∧ y > -0.5 ∧ y < 0.5 ∧ z > -0.5 ∧ z < 0.5

open Classical in
/-- demo/transient/transient.c 29-66: `PerturbInteriorVertices` in space.  `rand m` is the result
of call number `m` of `rand()`, divided by RAND_MAX; the state is the coordinates and the number of
calls made. -/
def perturbInteriorVertices (nv : Nat) (h : ℝ) (rand : Nat → ℝ) (coords : Nat → ℝ) :
    (Nat → ℝ) × Nat :=
  forN nv (fun v s =>
    let o := 3 * v
    if inside (s.1 o) (s.1 (o + 1)) (s.1 (o + 2)) then
      (wr s.1 (o + 2) (perturbOne h (rand s.2) (s.1 (o + 2))), s.2 + 1)
    else s) (coords, 0)

/-- demo/transient/transient.c 5-9: `Porosity` -/
def transientPorosity : Fn := fun n _x theta => forN n (fun i theta => wr theta i 0.5) theta

/-- demo/transient/transient.c 11-15: `Permeability` -/
def transientPermeability : Fn := fun n _x K => forN n (fun i K => wr K i 1e-10) K

/-- demo/transient/transient.c 17-21: `Pressure` -/
def transientPressure : Fn := fun n _x p => forN n (fun i p => wr p i 91325) p

/-- demo/transient/transient.c 23-27: `Forcing`; it writes `*f` for every point. -/
def transientForcing : Fn := fun n _x f => forN n (fun _i f => wr f 0 0) f

/-- A vector of `len` numbers: writing behind the end is undefined. -/
def put (len : Nat) (r : Res (Nat → ℝ)) (i : Nat) (v : ℝ) : Res (Nat → ℝ) :=
  r.bind (fun a => if i < len then .ok (wr a i v) else .ub)

/-- demo/salinity/salinity.c 42-51: the starting values; `len` is the local length of the vector,
two numbers for each local cell. -/
def salinityStart (len : Nat) (soln : Nat → ℝ) : Res (Nat → ℝ) :=
  let ncells := 5
  let r := forN ncells (fun c r => put len r (2 * c) 101325) (Res.ok soln)
  let r := put len r 1 1
  forN (ncells - 1) (fun c r => put len r (2 * c + 3) 0.00001) r

end

end TDy.Demo
