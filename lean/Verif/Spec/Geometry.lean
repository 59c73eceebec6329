import Verif.Model.Geometry
import Mathlib.LinearAlgebra.Matrix.Determinant.Basic
import Mathlib.LinearAlgebra.Matrix.Notation

/-! # What the geometric properties mean -/

namespace TDy.Geo.Spec

noncomputable section

/-- The matrix with these three rows. -/
def rows (u v w : P3) : Matrix (Fin 3) (Fin 3) ℝ := !![u.x, u.y, u.z; v.x, v.y, v.z; w.x, w.y, w.z]

/-- A point plus a combination of vectors. -/
def at' (o : P3) (u v w : P3) (a b c : ℝ) : P3 :=
  ⟨o.x + a * u.x + b * v.x + c * w.x, o.y + a * u.y + b * v.y + c * w.y,
   o.z + a * u.z + b * v.z + c * w.z⟩

/-- `q - p` -/
def minus (q p : P3) : P3 := ⟨q.x - p.x, q.y - p.y, q.z - p.z⟩

/-- Signed volume of the tetrahedron `p q r s`. -/
def signedTet (p q r s : P3) : ℝ := (rows (minus q p) (minus r p) (minus s p)).det / 6

/-- Volume enclosed by a closed surface of triangles (divergence theorem): the signed volumes of
the tetrahedra they span with the origin. -/
def enclosed (v : Nat → P3) (tris : List (Nat × Nat × Nat)) : ℝ :=
  (tris.map fun t => (rows (v t.1) (v t.2.1) (v t.2.2)).det / 6).sum

/-- The boundary of a hexahedron with vertices 0-3 below 4-7, every face split by a diagonal. -/
def hexSurface : List (Nat × Nat × Nat) :=
  [(0, 2, 1), (0, 3, 2), (4, 5, 7), (5, 6, 7), (0, 1, 5), (0, 5, 4), (1, 2, 5), (2, 6, 5),
   (2, 3, 7), (2, 7, 6), (3, 0, 7), (0, 4, 7)]

/-- The boundary of a wedge with vertices 0-2 below 3-5. -/
def wedgeSurface : List (Nat × Nat × Nat) :=
  [(0, 2, 1), (3, 4, 5), (0, 1, 3), (1, 4, 3), (1, 2, 4), (2, 5, 4), (2, 0, 3), (2, 3, 5)]

/-- The boundary of a pyramid with base 0-3 and apex 4. -/
def pyramidSurface : List (Nat × Nat × Nat) :=
  [(0, 2, 1), (0, 3, 2), (0, 1, 4), (1, 2, 4), (2, 3, 4), (3, 0, 4)]

/-- Euclidean length of a vector. -/
def len (v : P3) : ℝ := Real.sqrt (v.x ^ 2 + v.y ^ 2 + v.z ^ 2)

/-- Inner product. -/
def inner (u v : P3) : ℝ := u.x * v.x + u.y * v.y + u.z * v.z

def onPlane (pl : Plane) (p : P3) : Prop := pl.a * p.x + pl.b * p.y + pl.c * p.z + pl.d = 0

/-- The entries of a `PetscReal a[9]` as a matrix, row by row. -/
def matrix (a : Nat → ℝ) : Matrix (Fin 3) (Fin 3) ℝ := Matrix.of fun i j => a (3 * i + j)

/-- Centre of mass of a solid made of tetrahedra: volume-weighted mean of their centroids, one
coordinate at a time; stated as `mass * centre = moment`. -/
def moment (v : Nat → P3) (f : P3 → ℝ) (tets : List (Nat × Nat × Nat × Nat)) : ℝ :=
  (tets.map fun t => tetVolume (v t.1) (v t.2.1) (v t.2.2.1) (v t.2.2.2) *
    ((f (v t.1) + f (v t.2.1) + f (v t.2.2.1) + f (v t.2.2.2)) / 4)).sum

end

end TDy.Geo.Spec
