import Mathlib.Data.Real.Basic
import Mathlib.Algebra.BigOperators.Group.Finset.Basic
import Verif.Basic
import Verif.Loop

/-!
# Model of the finite element basis

src/fe/tdyfe.c 153-314: the vertex quadrature, the Piola transformation and the H(div) basis
functions of quadrilaterals and hexahedra.  Arithmetic is that of ℝ.  A vector or a matrix is a
function from indices (a pointer); `DF[i*dim+j]` is row major, as PETSc returns it.
-/

namespace TDy.Fe

noncomputable section

/-- SetQuadrature (src/fe/tdyfe.c:153-184): coordinate `d` of point `q`, for lines, quadrilaterals
and hexahedra; every weight is 1.  The tables of lines 161-181 are given by their rule: coordinate
`d` of point `q` is -1 if bit `d` of `q` is clear, otherwise 1.  The rule is checked against the
tables in the examples below. -/
def quadX (q d : Nat) : ℝ := if (q / 2^d) % 2 = 0 then -1 else 1

/-- SetQuadrature (src/fe/tdyfe.c:166-171): the table of the quadrilateral. -/
example : [quadX 0 0, quadX 0 1, quadX 1 0, quadX 1 1, quadX 2 0, quadX 2 1, quadX 3 0, quadX 3 1]
    = [-1, -1, 1, -1, -1, 1, 1, 1] := by norm_num [quadX]

/-- SetQuadrature (src/fe/tdyfe.c:172-180): the table of the hexahedron. -/
example : [quadX 0 0, quadX 0 1, quadX 0 2, quadX 1 0, quadX 1 1, quadX 1 2,
      quadX 2 0, quadX 2 1, quadX 2 2, quadX 3 0, quadX 3 1, quadX 3 2,
      quadX 4 0, quadX 4 1, quadX 4 2, quadX 5 0, quadX 5 1, quadX 5 2,
      quadX 6 0, quadX 6 1, quadX 6 2, quadX 7 0, quadX 7 1, quadX 7 2]
    = [-1, -1, -1, 1, -1, -1, -1, 1, -1, 1, 1, -1,
       -1, -1, 1, 1, -1, 1, -1, 1, 1, 1, 1, 1] := by
  norm_num [quadX]
  refine ⟨?_, ?_, ?_, ?_, ?_, ?_, ?_⟩ <;> (intro h; exact absurd h (by decide))

/-- ElementSide (src/fe/tdywy.c:141-145) -/
def elementSide (q d : Nat) : ℝ :=
  let mod := forN d (fun _ m => m*2) 1
  if (q / mod) % 2 = 0 then -1 else 1

/-- Piola (src/fe/tdyfe.c:189-201): `u <- 1/J DF u`. -/
def piola (u DF : Nat → ℝ) (J : ℝ) (dim : Nat) : Nat → ℝ := fun i =>
  forN dim (fun j v => v + DF (i*dim + j)*u j) 0 / J

/-- HdivBasisQuad (src/fe/tdyfe.c:216-231): the entries `B[0]`, ..., `B[15]` before the Piola
transformation.  The constants 0.25, 0.125 are written as divisions by 4, 8. -/
def quadRef (x y : ℝ) : Nat → ℝ
  | 0 => (-x*y + x + y - 1) / 4
  | 1 => (y*y - 1) / 8
  | 2 => (x*x - 1) / 8
  | 3 => (-x*y + x + y - 1) / 4
  | 4 => (-x*y + x - y + 1) / 4
  | 5 => (y*y - 1) / 8
  | 6 => (-x*x + 1) / 8
  | 7 => (x*y - x + y - 1) / 4
  | 8 => (x*y + x - y - 1) / 4
  | 9 => (-y*y + 1) / 8
  | 10 => (x*x - 1) / 8
  | 11 => (-x*y - x + y + 1) / 4
  | 12 => (x*y + x + y + 1) / 4
  | 13 => (-y*y + 1) / 8
  | 14 => (-x*x + 1) / 8
  | 15 => (x*y + x + y + 1) / 4
  | _ => 0

/-- HdivBasisHex (src/fe/tdyfe.c:239-310): the entries `B[0]`, ..., `B[71]` before the Piola
transformation.  The constants 0.125, 0.0625 are written as divisions by 8, 16. -/
def hexRef (x y z : ℝ) : Nat → ℝ
  | 0 => (x*y*z - x*y - x*z + x - y*z + y + z - 1) / 8
  | 1 => (y*y - 1) / 16
  | 2 => (-y*z*z + y + z*z - 1) / 16
  | 3 => (-x*x*z + x*x + z - 1) / 16
  | 4 => (x*y*z - x*y - x*z + x - y*z + y + z - 1) / 8
  | 5 => (z*z - 1) / 16
  | 6 => (x*x - 1) / 16
  | 7 => (-x*y*y + x + y*y - 1) / 16
  | 8 => (x*y*z - x*y - x*z + x - y*z + y + z - 1) / 8
  | 9 => (x*y*z - x*y - x*z + x + y*z - y - z + 1) / 8
  | 10 => (y*y - 1) / 16
  | 11 => (-y*z*z + y + z*z - 1) / 16
  | 12 => (x*x*z - x*x - z + 1) / 16
  | 13 => (-x*y*z + x*y + x*z - x - y*z + y + z - 1) / 8
  | 14 => (z*z - 1) / 16
  | 15 => (-x*x + 1) / 16
  | 16 => (x*y*y - x + y*y - 1) / 16
  | 17 => (-x*y*z + x*y + x*z - x - y*z + y + z - 1) / 8
  | 18 => (-x*y*z + x*y - x*z + x + y*z - y + z - 1) / 8
  | 19 => (-y*y + 1) / 16
  | 20 => (y*z*z - y + z*z - 1) / 16
  | 21 => (-x*x*z + x*x + z - 1) / 16
  | 22 => (x*y*z - x*y + x*z - x - y*z + y - z + 1) / 8
  | 23 => (z*z - 1) / 16
  | 24 => (x*x - 1) / 16
  | 25 => (x*y*y - x - y*y + 1) / 16
  | 26 => (-x*y*z + x*y - x*z + x + y*z - y + z - 1) / 8
  | 27 => (-x*y*z + x*y - x*z + x - y*z + y - z + 1) / 8
  | 28 => (-y*y + 1) / 16
  | 29 => (y*z*z - y + z*z - 1) / 16
  | 30 => (x*x*z - x*x - z + 1) / 16
  | 31 => (-x*y*z + x*y - x*z + x - y*z + y - z + 1) / 8
  | 32 => (z*z - 1) / 16
  | 33 => (-x*x + 1) / 16
  | 34 => (-x*y*y + x - y*y + 1) / 16
  | 35 => (x*y*z - x*y + x*z - x + y*z - y + z - 1) / 8
  | 36 => (-x*y*z - x*y + x*z + x + y*z + y - z - 1) / 8
  | 37 => (y*y - 1) / 16
  | 38 => (y*z*z - y - z*z + 1) / 16
  | 39 => (x*x*z + x*x - z - 1) / 16
  | 40 => (-x*y*z - x*y + x*z + x + y*z + y - z - 1) / 8
  | 41 => (-z*z + 1) / 16
  | 42 => (x*x - 1) / 16
  | 43 => (-x*y*y + x + y*y - 1) / 16
  | 44 => (x*y*z + x*y - x*z - x - y*z - y + z + 1) / 8
  | 45 => (-x*y*z - x*y + x*z + x - y*z - y + z + 1) / 8
  | 46 => (y*y - 1) / 16
  | 47 => (y*z*z - y - z*z + 1) / 16
  | 48 => (-x*x*z - x*x + z + 1) / 16
  | 49 => (x*y*z + x*y - x*z - x + y*z + y - z - 1) / 8
  | 50 => (-z*z + 1) / 16
  | 51 => (-x*x + 1) / 16
  | 52 => (x*y*y - x + y*y - 1) / 16
  | 53 => (-x*y*z - x*y + x*z + x - y*z - y + z + 1) / 8
  | 54 => (x*y*z + x*y + x*z + x - y*z - y - z - 1) / 8
  | 55 => (-y*y + 1) / 16
  | 56 => (-y*z*z + y - z*z + 1) / 16
  | 57 => (x*x*z + x*x - z - 1) / 16
  | 58 => (-x*y*z - x*y - x*z - x + y*z + y + z + 1) / 8
  | 59 => (-z*z + 1) / 16
  | 60 => (x*x - 1) / 16
  | 61 => (x*y*y - x - y*y + 1) / 16
  | 62 => (-x*y*z - x*y - x*z - x + y*z + y + z + 1) / 8
  | 63 => (x*y*z + x*y + x*z + x + y*z + y + z + 1) / 8
  | 64 => (-y*y + 1) / 16
  | 65 => (-y*z*z + y - z*z + 1) / 16
  | 66 => (-x*x*z - x*x + z + 1) / 16
  | 67 => (x*y*z + x*y + x*z + x + y*z + y + z + 1) / 8
  | 68 => (-z*z + 1) / 16
  | 69 => (-x*x + 1) / 16
  | 70 => (-x*y*y + x - y*y + 1) / 16
  | 71 => (x*y*z + x*y + x*z + x + y*z + y + z + 1) / 8
  | _ => 0
/-- HdivBasisQuad (src/fe/tdyfe.c:213-234) at the reference point `x`: `B[k]`.  The loop of line 232
transforms disjoint blocks of two entries in place; entry `k` lies in block `k/2`. -/
def hdivBasisQuad (x DF : Nat → ℝ) (J : ℝ) : Nat → ℝ := fun k =>
  piola (fun j => quadRef (x 0) (x 1) (2*(k/2) + j)) DF J 2 (k % 2)

/-- HdivBasisHex (src/fe/tdyfe.c:236-313) at the reference point `x`: `B[k]`.  The loop of line 311
transforms disjoint blocks of three entries in place; entry `k` lies in block `k/3`. -/
def hdivBasisHex (x DF : Nat → ℝ) (J : ℝ) : Nat → ℝ := fun k =>
  piola (fun j => hexRef (x 0) (x 1) (x 2) (3*(k/3) + j)) DF J 3 (k % 3)

/-- The choice of lines 401-405 and 479-483 of src/fe/tdybdm.c. -/
def hdivBasis (dim : Nat) (x DF : Nat → ℝ) (J : ℝ) : Nat → ℝ :=
  if dim = 2 then hdivBasisQuad x DF J else hdivBasisHex x DF J

end

end TDy.Fe
