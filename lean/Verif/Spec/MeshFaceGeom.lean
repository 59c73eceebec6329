import Verif.Spec.MeshFaceOrient
import Mathlib.Analysis.SpecialFunctions.Pow.Real

/-! # Vocabulary for distances and areas of faces -/

namespace TDy.FaceGeom.Spec

open TDy.Geo TDy.FaceOrient.Spec

/-- Distance of two points. -/
noncomputable def dist (p q : P3) : ℝ :=
  Real.sqrt ((q.x - p.x) ^ 2 + (q.y - p.y) ^ 2 + (q.z - p.z) ^ 2)

/-- On which side of the plane through `a`, `b`, `c` the point `q` is: positive on one side, negative
on the other, 0 on the plane (six times the volume of the tetrahedron). -/
def side (a b c q : P3) : ℝ := ip (cross (join a b) (join a c)) (join a q)

/-- The point at fraction `r` of the way from `p` to `q`. -/
def between (p q : P3) (r : ℝ) : P3 :=
  ⟨p.x + r * (q.x - p.x), p.y + r * (q.y - p.y), p.z + r * (q.z - p.z)⟩

/-- The area of a plane convex quadrilateral: half the length of the cross product of its
diagonals. -/
noncomputable def quadArea (a b c d : P3) : ℝ :=
  Real.sqrt (len2 (cross (join a c) (join b d))) / 2

/-- The centre of mass of the quadrilateral with corners `a`, `b`, `c`, `d`, in coordinates `f`: the
two triangles `abc` and `acd`, weighted by their areas; stated as mass times centre. -/
def IsCentre (a b c d m : P3) : Prop :=
  ∀ f ∈ [P3.x, P3.y, P3.z],
    (Real.sqrt (len2 (cross (join a b) (join a c))) + Real.sqrt (len2 (cross (join a c) (join a d)))) * f m =
      Real.sqrt (len2 (cross (join a b) (join a c))) * ((f a + f b + f c) / 3) +
      Real.sqrt (len2 (cross (join a c) (join a d))) * ((f a + f c + f d) / 3)

/-- The line from `up` to `dn` is cut at the fraction `r` of its length: distances on both sides, the
weight of the first side, and the unit vector `u` from `up` to `dn`. -/
structure TwoPoint (up dn : P3) (r distUp distDn wtUp : ℝ) (u : P3) : Prop where
  inside : 0 < r ∧ r < 1
  first : distUp = dist up (between up dn r)
  second : distDn = dist (between up dn r) dn
  sum : distUp + distDn = dist up dn
  weight : wtUp = r
  unit : len2 u = 1
  along : join up dn = ⟨dist up dn * u.x, dist up dn * u.y, dist up dn * u.z⟩

end TDy.FaceGeom.Spec
