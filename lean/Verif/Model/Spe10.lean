import Mathlib.Analysis.SpecialFunctions.Trigonometric.Basic
import Mathlib.Algebra.Order.Floor.Ring
import Verif.Loop

/-!
# Model of the demonstration program for the SPE10 benchmark

demo/SPE10/steady.c reads three permeabilities for each of 60 x 220 x 85 cells, turns the tensors by an
angle and hands them to the library.

Simplified: `double` is ℝ; the file is the list of its words, `none` for a word that is not a number; an
entry of the buffer that has not been written is `none`.  Not modelled: the mesh, the solver, and
`TDySetCellPermeability` itself, which is switched off (`#if 0`) in src/materials/tdymaterialproperties.c
761-881, so that the program cannot be linked with the library as it is.
-/

namespace TDy.Spe10

open TDy

noncomputable section

/-- demo/SPE10/steady.c 4-28: `Rotation`.  The entry (i, j) is stored at `j*dim+i`. -/
def rotation (R : Nat → ℝ) (ang : ℝ) (axis dim : Nat) : Nat → ℝ :=
  let ang := ang / 180 * Real.pi
  let axis := if dim = 2 then 2 else axis
  forN dim (fun i R => forN dim (fun j R =>
    if i = axis ∨ j = axis then
      if i = j then wr R (j * dim + i) 1 else wr R (j * dim + i) 0
    else
      let row := if i > axis then i - 1 else i
      let col := if j > axis then j - 1 else j
      let R := if row = 0 ∧ col = 0 then wr R (j * dim + i) (Real.cos ang) else R
      let R := if row = 0 ∧ col = 1 then wr R (j * dim + i) (-Real.sin ang) else R
      let R := if row = 1 ∧ col = 0 then wr R (j * dim + i) (Real.sin ang) else R
      if row = 1 ∧ col = 1 then wr R (j * dim + i) (Real.cos ang) else R) R) R

/-- `BLASgemm_("N","N",..)` for square buffers stored by columns: the product. -/
def gemmNN (n : Nat) (A B : Nat → ℝ) (q : Nat) : ℝ :=
  ((List.range n).map fun k => A (k * n + q % n) * B (q / n * n + k)).sum

/-- `BLASgemm_("N","T",..)`: the product with the transpose of the second buffer. -/
def gemmNT (n : Nat) (A B : Nat → ℝ) (q : Nat) : ℝ :=
  ((List.range n).map fun k => A (k * n + q % n) * B (k * n + q / n)).sum

/-- demo/SPE10/steady.c 44-52: the rotation of the tensors; `m0` and `m1` are what the local arrays hold
before. -/
def frame (m0 m1 : Nat → ℝ) (ang : ℝ) (dim : Nat) : Nat → ℝ :=
  if dim = 2 then rotation m0 ang 2 dim
  else gemmNN dim (rotation m0 ang 1 dim) (rotation m1 (0.5 * ang) 2 dim)

/-- demo/SPE10/steady.c 56-59: the file is read to its end.  `none`: the program writes behind the
buffer, or does not end because `fscanf` stays before a word that is not a number. -/
def readFile (cap : Nat) : List (Option ℝ) → Nat → (Nat → Option ℝ) → Option (Nat → Option ℝ)
  | [], _, b => some b
  | none :: _, _, _ => none
  | some v :: rest, i, b => if i < cap then readFile cap rest (i + 1) (wr b i (some v)) else none

/-- demo/SPE10/steady.c 54-59: allocation and reading; `none` for the file is a failed `fopen`. -/
def buffer (file : Option (List (Option ℝ))) : Option (Nat → Option ℝ) :=
  match file with
  | none => some fun _ => none
  | some words => readFile (3 * 85 * 220 * 60) words 0 fun _ => none

/-- The conversion of a `double` to `PetscInt`: towards zero. -/
def toInt (r : ℝ) : ℤ := if 0 ≤ r then ⌊r⌋ else ⌈r⌉

/-- demo/SPE10/steady.c 68-72 (2D) and 76-79 (3D): the three numbers of the entry of a cell with centroid
`X`. -/
def cellOf (dim : Nat) (X : Nat → ℝ) : ℤ × ℤ × ℤ :=
  if dim = 2 then
    (toInt ((X 0 - -600) / 20), 0, 85 - 1 - toInt ((X 1 - -170) / 2))
  else
    (toInt ((X 0 - -600) / 20), toInt ((X 1 - -1100) / 10), 85 - 1 - toInt ((X 2 - -170) / 2))

/-- demo/SPE10/steady.c 72-73 and 81: the place of permeability `d` in the buffer. -/
def place (d : ℤ) (p : ℤ × ℤ × ℤ) : ℤ :=
  d * (85 * 220 * 60) + p.2.2 * (220 * 60) + p.2.1 * 60 + p.1

/-- demo/SPE10/steady.c 66-83: the diagonal tensor, from values `k d` of the buffer (`k 2` is the second
diagonal entry in 2D). -/
def diagonal (dim : Nat) (k : Nat → ℝ) : Nat → ℝ :=
  let K : Nat → ℝ := fun _ => 0
  if dim = 2 then wr (wr K (0 * dim + 0) (k 0)) (1 * dim + 1) (k 2)
  else forN dim (fun d K => wr K (d * dim + d) (k d)) K

/-- demo/SPE10/steady.c 84-86: `K = R * K * R.T` -/
def turned (dim : Nat) (R K : Nat → ℝ) : Nat → ℝ := gemmNN dim R (gemmNT dim K R)

/-- demo/SPE10/steady.c 93-99: `Pressure`, for a point with the given coordinates; `none` if it reads
behind them. -/
def pressure : List ℝ → Option ℝ
  | x :: y :: z :: _ =>
    some ((0.5 * 1200 + x) / 1200 + (0.5 * 2200 + y) / 2200 + (0.5 * -170 + z) / -170)
  | _ => none

end

end TDy.Spe10
