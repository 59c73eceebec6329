import Mathlib.Data.Real.Basic
import Mathlib.Data.Int.Notation

/-!
# What files and samples should hold
-/

namespace TDy.Io.Spec

/-- What `printf("%11.5e", t)` prints for a positive time `t`: a significand of six digits `m` (that is
`m/10^5`, between 1 and 10) and an exponent `e`, nearest to `t`.  Ties are left open. -/
def IsLabel (t : ℝ) (l : Nat × Int) : Prop :=
  10^5 ≤ l.1 ∧ l.1 < 10^6 ∧ |t - l.1*(10 : ℝ)^(l.2 - 5)| ≤ 1/2*(10 : ℝ)^(l.2 - 5)

/-- The name that the visualisation format has for a cell of dimension `dim` with `corners` vertices. -/
def TopologyName (dim corners : Nat) (name : String) : Prop :=
  (dim = 2 ∧ corners = 3 ∧ name = "Triangle") ∨ (dim = 2 ∧ corners = 4 ∧ name = "Quadrilateral")
    ∨ (dim = 3 ∧ corners = 4 ∧ name = "Tetrahedron") ∨ (dim = 3 ∧ corners = 5 ∧ name = "Pyramid")
    ∨ (dim = 3 ∧ corners = 6 ∧ name = "Wedge") ∨ (dim = 3 ∧ corners = 8 ∧ name = "Hexahedron")

end TDy.Io.Spec
