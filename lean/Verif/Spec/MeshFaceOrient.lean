import Verif.Model.Geometry

/-! # Vocabulary for the orientation of faces -/

namespace TDy.FaceOrient.Spec

open TDy.Geo

/-- `a + s u + t w` -/
def comb (a u w : P3) (s t : ℝ) : P3 :=
  ⟨a.x + s * u.x + t * w.x, a.y + s * u.y + t * w.y, a.z + s * u.z + t * w.z⟩

/-- Four points are the corners of a plane convex quadrilateral, in order, with side vectors `u`
(from `a` to `b`) and `w` (from `a` to `d`): the third corner lies in the angle at `a`, beyond the
diagonal. -/
structure Convex (a b c d u w : P3) : Prop where
  second : b = comb a u w 1 0
  fourth : d = comb a u w 0 1
  third : ∃ s t : ℝ, 0 < s ∧ 0 < t ∧ 1 < s + t ∧ c = comb a u w s t
  area : cross u w ≠ ⟨0, 0, 0⟩

/-- Length of a vector, squared. -/
def len2 (a : P3) : ℝ := a.x ^ 2 + a.y ^ 2 + a.z ^ 2

/-- Scalar product. -/
def ip (a b : P3) : ℝ := a.x * b.x + a.y * b.y + a.z * b.z

/-- The unit vector `n` is perpendicular to both `u` and `w`, which follow each other
anticlockwise seen from its tip. -/
structure UnitNormal (n u w : P3) : Prop where
  unit : len2 n = 1
  perpU : ip n u = 0
  perpW : ip n w = 0
  right : 0 < ip n (cross u w)

/-- The signed height of point `p` over the plane through `q` with normal `n`. -/
def height (n q p : P3) : ℝ := ip n (join q p)

end TDy.FaceOrient.Spec
