import Mathlib.Algebra.BigOperators.Group.Finset.Basic
import Mathlib.Data.Real.Basic
import Verif.Model.Spe10

/-!
# What the program for the SPE10 benchmark should do

Matrices are functions of two indices.
-/

namespace TDy.Spe10

open Finset

/-- The matrix stored by columns in a buffer. -/
def mat (n : Nat) (A : Nat → ℝ) (i j : Nat) : ℝ := A (j * n + i)

/-- The columns are orthonormal. -/
def Orthonormal (n : Nat) (M : Nat → Nat → ℝ) : Prop :=
  ∀ i j, i < n → j < n → ∑ k ∈ range n, M k i * M k j = if i = j then 1 else 0

/-- A vector times a matrix. -/
def times (n : Nat) (M : Nat → Nat → ℝ) (v : Nat → ℝ) (i : Nat) : ℝ := ∑ j ∈ range n, M i j * v j

/-- The permeability along direction `d`, of the three `k` of a cell.  A mesh of two dimensions is the
vertical section, whose second direction is the third of the file. -/
def principal (dim : Nat) (k : Nat → ℝ) (d : Nat) : ℝ := if dim = 2 ∧ d = 1 then k 2 else k d

/-- The box of the benchmark. -/
def InBox (x y z : ℝ) : Prop := -600 ≤ x ∧ x < 600 ∧ -1100 ≤ y ∧ y < 1100 ∧ -170 ≤ z ∧ z < 0

/-- The permeabilities a file of the benchmark lists for a cell: three blocks, one for each direction, each
with 85 layers from the top, 220 rows and 60 columns. -/
noncomputable def listed (vals : Nat → ℝ) (d a b layer : Nat) : ℝ :=
  vals (((d * 85 + layer) * 220 + b) * 60 + a)

end TDy.Spe10
