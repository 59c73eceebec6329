import Mathlib.LinearAlgebra.Matrix.Symmetric
import Mathlib.Data.Finset.Basic
import Verif.Model.Wy

/-!
# What the WY method needs from a mesh, and the discrete laws it stands for
-/

namespace TDy.Fe.Spec

open TDy.Fe Finset

noncomputable section

/-- The mesh around a vertex: the star lists cells and faces once, the vertex is corner `cor c` of each
of its cells `c`, and the faces of that corner are faces at the vertex, different ones for different
directions. -/
structure Star (w : Wy) (v : Nat) (cor : Nat → Nat) : Prop where
  faces_nodup : (w.faces v).Nodup
  cells_nodup : (w.cells v).Nodup
  cor_lt : ∀ c ∈ w.cells v, cor c < w.nq
  cor_at : ∀ c ∈ w.cells v, w.vmap c (cor c) = v
  cor_only : ∀ c ∈ w.cells v, ∀ q < w.nq, w.vmap c q = v → q = cor c
  face_mem : ∀ c ∈ w.cells v, ∀ i < w.dim, w.face c (cor c) i ∈ w.faces v
  face_inj : ∀ c ∈ w.cells v, ∀ i < w.dim, ∀ j < w.dim, w.face c (cor c) i = w.face c (cor c) j → i = j
  /-- a face with a given pressure belongs to one cell -/
  bc_once : ∀ c ∈ w.cells v, ∀ c' ∈ w.cells v, ∀ i < w.dim, ∀ j < w.dim,
    w.face c (cor c) i = w.face c' (cor c') j → w.bc (w.face c (cor c) i) = true →
    w.hasPressure = true → c = c'

/-- Whether a pressure is given on a face. -/
def Wy.given (w : Wy) (f : Nat) : Prop := w.bc f = true ∧ w.hasPressure = true

/-- Coordinate `i` of corner `q` of the reference cell `[-1,1]^dim`; corners are counted in binary, the
first coordinate fastest. -/
def cornerSide (q i : Nat) : ℝ := if q.testBit i then 1 else -1

/-- `(K^-1 v_i, v_j)` at corner `q` of cell `c`, for the shape functions of its faces in directions `i`
and `j` of the reference cell, by the quadrature at the corners: the inverse of the permeability pulled
back to the reference cell, on faces of reference area `2^(dim-1)`. -/
def cornerMass (w : Wy) (K : Nat → Nat → ℝ) (c q i j : Nat) : ℝ :=
  entry (w.J c q • (toMatrix w.dim (w.DFinv c q)*toMatrix w.dim (K c)
    *(toMatrix w.dim (w.DFinv c q)).transpose))⁻¹ i j*cornerSide q i*cornerSide q j*(4/4^w.dim)

open Classical in
/-- Discrete Darcy law at face `f` of vertex `v`: with `u f` the velocity through face `f` at `v`,
`sum over the cells of (K^-1 u, v_f) = sum over the cells of (p_c, div v_f)`, less the given pressure. -/
def DarcyAt (w : Wy) (K : Nat → Nat → ℝ) (p : Nat → ℝ) (v : Nat) (cor : Nat → Nat) (u : Nat → ℝ)
    (f : Nat) : Prop :=
  ∑ c ∈ (w.cells v).toFinset, ∑ i ∈ range w.dim, (if w.face c (cor c) i = f then
      ∑ j ∈ range w.dim, cornerMass w K c (cor c) i j*(w.sign c (cor c) i*w.V f)
        *(w.sign c (cor c) j*w.V (w.face c (cor c) j))*u (w.face c (cor c) j) else 0)
  = ∑ c ∈ (w.cells v).toFinset, ∑ i ∈ range w.dim, (if w.face c (cor c) i = f then
      (1/2)^(w.dim - 1)*w.sign c (cor c) i*w.V f*(p c - if Wy.given w f then w.pb f else 0) else 0)

/-- The cells at vertex `v` see face `f` from opposite sides: the signs cancel. -/
def Opposite (w : Wy) (v : Nat) (cor : Nat → Nat) (f : Nat) : Prop :=
  ∑ c ∈ (w.cells v).toFinset, ∑ i ∈ range w.dim,
    (if w.face c (cor c) i = f then w.sign c (cor c) i else 0) = 0

/-- Positive definite permeability and a regular map to the reference cell, with positive volume. -/
def Regular (w : Wy) (K : Nat → Nat → ℝ) (c : Nat) : Prop :=
  (∀ x : Fin w.dim → ℝ, x ≠ 0 → 0 < dotProduct x ((toMatrix w.dim (K c)).mulVec x))
  ∧ ∀ q < w.nq, 0 < w.J c q ∧ (toMatrix w.dim (w.DFinv c q)).det ≠ 0

/-- Face `f` belongs to a cell at vertex `v` and has an area. -/
def Covered (w : Wy) (v : Nat) (cor : Nat → Nat) (f : Nat) : Prop :=
  ∃ c ∈ w.cells v, ∃ i < w.dim, w.face c (cor c) i = f ∧ w.sign c (cor c) i ≠ 0 ∧ w.V f ≠ 0

/-- The place of a vertex in the list of the vertices of a face. -/
def Place (w : Wy) (f v k : Nat) : Prop :=
  k < w.nfv ∧ w.fmap f k = v ∧ ∀ k' < w.nfv, w.fmap f k' = v → k' = k

/-- The corners of cell `c` and its faces: corner `q` is vertex `vmap c q` of the mesh, its faces are
faces of the cell seen from inside, every place of every face of the cell is one of these, and faces have
`2^(dim-1)` vertices. -/
structure CellMap (w : Wy) (pl : Nat → Nat → Nat) (c : Nat) : Prop where
  vertex : ∀ q < w.nq, w.vStart ≤ w.vmap c q ∧ w.vmap c q < w.vEnd ∧ c ∈ w.cells (w.vmap c q)
  cone_nodup : (w.cone c).Nodup
  face_in : ∀ q < w.nq, ∀ d < w.dim, w.face c q d ∈ w.cone c ∧ w.sign c q d = w.outSign c (w.face c q d)
  onto : ∀ f ∈ w.cone c, ∀ j < w.nfv, ∃ q < w.nq, ∃ d < w.dim,
    w.face c q d = f ∧ pl f (w.vmap c q) = j
  size : w.nfv = 2^(w.dim - 1)

/-- `num` are the numbers of the cells in the global system: the map of a process holds the number of a
cell it owns, and `-(number+1)` for any other. -/
structure GlobalNumbers (w : Wy) (num : Nat → Nat) : Prop where
  enc : ∀ c < w.nCells, w.global c = num c ∨ w.global c = -(num c : ℤ) - 1
  inj : ∀ c < w.nCells, ∀ c' < w.nCells, num c = num c' → c = c'

/-- The size below which an entry of the stencil of vertex `v` is left out of the matrix: `tol` times the
largest entry. -/
def threshold (w : Wy) (Al : Nat → Nat → Nat → ℝ) (v : Nat) : ℝ :=
  match vertexSystem w Al v with
  | .ok t => match formStencil (w.faces v).length (w.cells v).length t with
    | .ok (C, _) => w.tol*maxAbs (w.cells v).length (entry C)
    | _ => 0
  | _ => 0

/-- Water that leaves cell `c` through its faces: area times the mean of the velocities at the vertices of
a face, outward. -/
def cellOutflow (w : Wy) (vel : Nat → Nat → ℝ) (c : Nat) : ℝ :=
  ∑ f ∈ (w.cone c).toFinset, w.outSign c f*w.V f*((∑ j ∈ range w.nfv, vel f j)/w.nfv)

/-- Water that enters cell `c` from sources: the forcing integrated over the cell. -/
def cellSource (w : Wy) (c : Nat) : ℝ :=
  if w.hasForcing then ∑ q ∈ range w.nq, w.force c q*w.J c q else 0

end

end TDy.Fe.Spec
