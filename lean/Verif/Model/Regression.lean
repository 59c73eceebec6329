import Verif.Model.Io
import Mathlib.Data.Real.Basic

/-!
# The regression file (src/tdyregression.c)

The solution vector `U` of a run on `R` ranks: rank `r` holds `vec r` entries, those of the lower ranks
come first.  Printed numbers are real numbers; the format `%21.13e` is not modelled.
-/

namespace TDy.Regress

open TDy

noncomputable section

/-- `MPI_Exscan` of the local sizes, tdyregression.c 72-73. -/
def offset (vec : Nat → Nat) : Nat → Nat
  | 0 => 0
  | r + 1 => offset vec r + vec r

/-- `MPI_Allreduce` with `MPI_MIN`, tdyregression.c 57, over the ranks `0 .. R`. -/
def minSize (vec : Nat → Nat) : Nat → Nat
  | 0 => vec 0
  | R + 1 => min (minSize vec R) (vec (R + 1))

/-- tdyregression.c 76-127: the positions sampled by all ranks, in the order of the ranks
(`cells_per_process_natural_ids`), on ranks `0 .. R`; `none` is a division by zero on some rank. -/
def sampleIds (th : Bool) (req R : Nat) (vec : Nat → Nat) : Option (List Nat) :=
  ((List.range (R + 1)).mapM fun r =>
    (Io.regression th req (minSize vec R) (vec r) (offset vec r)).map fun s =>
      (List.range (s.num*s.dof)).map s.pos).map List.flatten

/-- tdyregression.c 178-183, 190-200: the entries of `U_pres` on rank `r`; `two` is `num_fields == 2`. -/
def presLocal (th two : Bool) (vec : Nat → Nat) (U : Nat → ℝ) (r : Nat) : List ℝ :=
  (List.range (if th then vec r/2 else vec r)).map fun c =>
    if th && two then U (offset vec r + c*2) else U (offset vec r + c)

/-- tdyregression.c 178-183, 190-195: the entries of `U_temp` on rank `r`, of which there are values
only for two fields (otherwise the vector keeps the zeros it is created with). -/
def tempLocal (two : Bool) (vec : Nat → Nat) (U : Nat → ℝ) (r : Nat) : List ℝ :=
  (List.range (vec r/2)).map fun c => if two then U (offset vec r + (c*2 + 1)) else 0

/-- `VecMax` and `VecMin`; `none` for a vector without entries (PETSc then gives plus or minus the
largest number). -/
def vecMax : List ℝ → Option ℝ
  | [] => none
  | a :: l => some (l.foldl max a)

def vecMin : List ℝ → Option ℝ
  | [] => none
  | a :: l => some (l.foldl min a)

/-- One section of the file: three statistics and the lines. -/
structure Section where
  max : Option ℝ
  min : Option ℝ
  mean : ℝ
  lines : List (Nat × ℝ)

/-- `VecSum` divided by `VecGetSize`, tdyregression.c 212-214. -/
def mean (l : List ℝ) : ℝ := l.sum/(l.length : ℝ)

/-- tdyregression.c 239-242 or 249-252 and the lines that follow. -/
def section' (vals : List ℝ) (lines : List (Nat × ℝ)) : Section :=
  ⟨vecMax vals, vecMin vals, mean vals, lines⟩

/-- tdyregression.c 244-247, 253-255: the lines of TH mode; `d` is 0 for pressures, 1 for
temperatures.  `vec_ptr[i]` is the entry `ids[i]` of `U` (line 156). -/
def linesTH (ids : List Nat) (U : Nat → ℝ) (d : Nat) : List (Nat × ℝ) :=
  (List.range (ids.length/2)).map fun i => (ids.getD (2*i) 0/2, U (ids.getD (2*i + d) 0))

/-- tdyregression.c 248-251: the lines of the other modes. -/
def linesOne (ids : List Nat) (U : Nat → ℝ) : List (Nat × ℝ) :=
  (List.range ids.length).map fun i => (ids.getD i 0, U (ids.getD i 0))

/-- `TDyRegressionInitialize` and `TDyRegressionOutput`, tdyregression.c 6-274: the section of the
pressures and, in TH mode, that of the temperatures.  That the file can be opened is assumed. -/
def output (th two : Bool) (req R : Nat) (vec : Nat → Nat) (U : Nat → ℝ) :
    Option (Section × Option Section) :=
  (sampleIds th req R vec).map fun ids =>
    let pres := (List.range (R + 1)).flatMap (presLocal th two vec U)
    let temp := (List.range (R + 1)).flatMap (tempLocal two vec U)
    if th then (section' pres (linesTH ids U 0), some (section' temp (linesTH ids U 1)))
    else (section' pres (linesOne ids U), none)

end

end TDy.Regress
