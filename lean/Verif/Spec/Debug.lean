import Mathlib.Data.Real.Basic
import Mathlib.Data.List.Basic
import Verif.Model.Debug

/-!
# What the debugging helpers should do

Written with matrices as functions of two indices, without loops.
-/

namespace TDy.Debug

/-- The `n` × `n` matrix stored row by row in an array. -/
def byRows (A : Nat → ℝ) (n : Nat) (i j : Nat) : ℝ := A (i * n + j)

/-- A matrix equals its transpose. -/
def Symmetric (M : Nat → Nat → ℝ) (n : Nat) : Prop := ∀ i j, i < n → j < n → M i j = M j i

/-- All pairs of a matrix, row by row. -/
def pairs (nr nc : Nat) : List (Nat × Nat) :=
  (List.range nr).flatMap fun i => (List.range nc).map fun j => (i, j)

/-- The value a reader sees for a printed piece. -/
noncomputable def Piece.value? : Piece → Option ℝ
  | .text _ => none
  | .num neg t => some ((if neg then -1 else 1) * ((t : ℝ) / 10000))

/-- The numbers in a text, in order. -/
noncomputable def numbers (out : List Piece) : List ℝ := out.filterMap Piece.value?

/-- A number rounded to four decimals. -/
noncomputable def shown (x : ℝ) : ℝ :=
  (if x < 0 then -1 else 1) * ((round (|x| * 10000) : ℝ) / 10000)

/-- How often a character is written by the literal strings of a text. -/
def occurs (c : Char) (out : List Piece) : Nat :=
  (out.map fun p => match p with
    | .text s => s.toList.count c
    | .num _ _ => 0).sum

end TDy.Debug
