import Mathlib.Algebra.Order.Round
import Mathlib.Algebra.Order.Archimedean.Real.Basic
import Verif.Loop

/-!
# The debugging helpers of the public interface

Models src/tdydebug.c: `PrintMatrix` (3-19) and `CheckSymmetric` (21-34), both declared in
include/tdycore.h 245-246.  `double` is ℝ; an array is a function of the index.

Not modelled: the width of the integers in the message of `CheckSymmetric` and a failing `printf`.
-/

namespace TDy.Debug

/-- One piece of the text written by `PrintMatrix`: a literal string, or a number written with
`%+.4f` as its sign and the number of ten-thousandths. -/
inductive Piece where
  | text (s : String)
  | num (neg : Bool) (ticks : ℤ)
  deriving DecidableEq, Repr

/-- `printf("%+.4f, ", x)`, tdydebug.c 10 and 12.  Simplification: a number half-way between two
ten-thousandths is rounded up (the C library rounds it to even), and a negative zero has no sign. -/
noncomputable def fmt4 (x : ℝ) : Piece := .num (decide (x < 0)) (round (|x| * 10000))

/-- The pieces printed for row `i`, tdydebug.c 7-16: a blank and a bracket unless it is the first row,
the entries, a bracket, and a comma unless it is the last row. -/
noncomputable def printRow (A : Nat → ℝ) (nr nc : Nat) (rowMajor : Bool) (i : Nat) (out : List Piece) :
    List Piece :=
  let out := if i > 0 then out ++ [.text " ["] else out
  let out := forN nc (fun j out =>
    if rowMajor then out ++ [fmt4 (A (i * nc + j))] else out ++ [fmt4 (A (j * nr + i))]) out
  let out := out ++ [.text "]"]
  if i + 1 < nr then out ++ [.text ",\n"] else out

/-- `PrintMatrix`, tdydebug.c 3-19: the text it writes. -/
noncomputable def printMatrix (A : Nat → ℝ) (nr nc : Nat) (rowMajor : Bool) : List Piece :=
  forN nr (printRow A nr nc rowMajor) [.text "[["] ++ [.text "]\n"]

/-- What `CheckSymmetric` has done so far: its return code and the pairs it has printed. -/
structure Check where
  ierr : Nat
  msgs : List (Nat × Nat)

/-- `CheckSymmetric`, tdydebug.c 21-34. -/
noncomputable def checkSymmetric (A : Nat → ℝ) (n : Nat) : Check :=
  forN n (fun i s =>
    forN n (fun j s =>
      if |A (i * n + j) - A (j * n + i)| > 1 / 10 ^ 12 then
        { ierr := 64, msgs := s.msgs ++ [(i, j)] }
      else s) s) { ierr := 0, msgs := [] }

end TDy.Debug
