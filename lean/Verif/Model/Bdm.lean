import Mathlib.Data.Matrix.Basic
import Mathlib.LinearAlgebra.Matrix.NonsingularInverse
import Verif.Model.FeBasis
import Verif.Model.FeMaps
import Verif.Model.Fvtpf

/-!
# Model of the BDM system

src/fe/tdybdm.c 282-552.  The geometry PETSc computes at quadrature points (`DF`, `J`, `x`), the
quadrature rules and the boundary values are data of the model.  LAPACK is exact: a regular matrix is
inverted, a singular one is reported and left with what the factorisation made of it (`lu`).
-/

namespace TDy.Fe

open TDy.Fvtpf (addAt addMat)

noncomputable section

/-- TDyKDotADotB (src/fe/tdybdm.c:282-295), KDotADotB (src/fe/tdywy.c:147-158) -/
def kDotADotB (K A B : Nat → ℝ) (dim : Nat) : ℝ :=
  forN dim (fun i outer => outer + forN dim (fun j inner => inner + K (j*dim + i)*A j) 0*B i) 0

/-- TDyADotB (src/tdycore.c:1557-1562) -/
def aDotB (a b : Nat → ℝ) (dim : Nat) : ℝ := forN dim (fun i s => s + a i*b i) 0

/-- The matrix stored in an array, row major. -/
def toMatrix (n : Nat) (a : Nat → ℝ) : Matrix (Fin n) (Fin n) ℝ := Matrix.of fun i j => a (i*n + j)

/-- The array of a matrix, row major. -/
def ofMatrix {n : Nat} (M : Matrix (Fin n) (Fin n) ℝ) : Nat → ℝ := fun k =>
  if h : k / n < n ∧ k % n < n then M ⟨k / n, h.1⟩ ⟨k % n, h.2⟩ else 0

open Classical in
/-- Inverse (src/fe/tdybdm.c:297-321).  LAPACK reads the array column major, that is transposed, and
stores the inverse of the transpose in the same way, which is the inverse row major. -/
def inverse (lu : (Nat → ℝ) → Nat → ℝ) (n : Nat) (K : Nat → ℝ) : Res (Nat → ℝ) :=
  if (toMatrix n K).det = 0 then .err (lu K) else .ok (ofMatrix (toMatrix n K)⁻¹)

/-- What is known at a quadrature point of a cell: reference coordinates and weight, `DF`, `J` and the
value of the forcing function. -/
structure QPoint where
  x : Nat → ℝ
  w : ℝ
  DF : Nat → ℝ
  J : ℝ
  force : ℝ

/-- What is known at a quadrature point of a face: the coordinates in the face (`fquad_x`), the weight,
the surface element `fJ`, and, at the same point of the cell, `DF`, `J`, and the boundary pressure. -/
structure FPoint where
  y : Nat → ℝ
  w : ℝ
  fJ : ℝ
  DF : Nat → ℝ
  J : ℝ
  g : ℝ

/-- A face of a cell: its point number, whether it carries the label `marker` = 1, its normal as stored
(`bdm->N`), `N . (X_f - X_c)`, and its quadrature points. -/
structure BFace where
  id : Nat
  isbc : Bool
  normal : Nat → ℝ
  side : ℝ
  nq : Nat
  pt : Nat → FPoint

/-- A cell: whether this process owns it, the rows `LtoG` and orientations of its unknowns, the row
`emap` of the map of faces, its quadrature points and its faces. -/
structure BCell where
  owned : Bool
  ltog : Nat → Nat
  orient : Nat → Int
  emap : Nat → Int
  nq : Nat
  pt : Nat → QPoint
  nFaces : Nat
  face : Nat → BFace

/-- The mesh and the conditions. -/
structure Bdm where
  dim : Nat
  /-- vertices per cell -/
  nv : Nat
  nCells : Nat
  cell : Nat → BCell
  hasForcing : Bool
  hasPressure : Bool

/-- What TDyBDMComputeSystem changes: the permeabilities `bdm->K` (one array per cell), the matrix and
the vector. -/
structure BState where
  perm : Nat → Nat → ℝ
  K : Nat → Nat → ℝ
  F : Nat → ℝ

/-- IntegratePressureBoundary (src/fe/tdybdm.c:344-368): direction and side on which the face lies; the
last corner and direction that refer to it count.  `lside[v*dim+d]` is bit `d` of `v`. -/
def faceDirSide (dim ncv : Nat) (emap : Nat → Int) (f : Nat) : Option (Nat × Nat) :=
  forN ncv (fun v r => forN dim (fun d r =>
    if (emap (v*dim + d)).natAbs = f then some (d, (v / 2^d) % 2) else r) r) none

/-- IntegratePressureBoundary (src/fe/tdybdm.c:369-371): the normal turned outwards. -/
def outwardNormal (f : BFace) : Nat → ℝ :=
  open Classical in if f.side < 0 then fun d => f.normal d*(-1) else f.normal

/-- IntegratePressureBoundary (src/fe/tdybdm.c:386-396): the point of the face in the cell. -/
def singlePoint (dir side : Nat) (y : Nat → ℝ) : Nat → ℝ := fun i =>
  if i = dir then (-1)^(side + 1) else if i < dir then y i else y (i - 1)

/-- IntegratePressureBoundary (src/fe/tdybdm.c:328-415): `gvdotn[i] -= g v_i.n` at every point.  If the
face is not one of the cell, `face_dir` stays -1 and a coordinate too many is read. -/
def integratePressureBoundary (b : Bdm) (c : BCell) (f : BFace) (gvdotn : Nat → ℝ) : Res (Nat → ℝ) :=
  match faceDirSide b.dim b.nv c.emap f.id with
  | none => .ub
  | some (dir, side) =>
    .ok (forN f.nq (fun q gv =>
      let p := f.pt q
      let basis := hdivBasis b.dim (singlePoint dir side p.y) p.DF p.J
      forN (b.nv*b.dim) (fun i gv =>
        wr gv i (gv i - p.g*aDotB (fun k => basis (i*b.dim + k)) (outwardNormal f) b.dim*p.w*p.fJ)) gv)
      gvdotn)

/-- `Klocal`, indexed as `[second*nlocal + first]`, and `Flocal`. -/
structure Elem where
  K : Nat → Nat → ℝ
  F : Nat → ℝ

/-- TDyBDMComputeSystem (src/fe/tdybdm.c:476-510): the quadrature of one cell.  `kinv` is the array
`bdm->K` of the cell after the inversion. -/
def quadrature (b : Bdm) (c : BCell) (kinv : Nat → ℝ) (e : Elem) : Elem :=
  let nlocal := b.dim*b.nv + 1
  forN c.nq (fun q e =>
    let p := c.pt q
    let basis := hdivBasis b.dim p.x p.DF p.J
    let e := forN b.nv (fun vi e => forN b.nv (fun vj e => forN b.dim (fun di e => forN b.dim (fun dj e =>
      (⟨addMat e.K (vj*b.dim + dj) (vi*b.dim + di)
          (kDotADotB kinv (fun k => basis (b.dim*(vi*b.dim + di) + k))
            (fun k => basis (b.dim*(vj*b.dim + dj) + k)) b.dim*p.w*p.J), e.F⟩ : Elem)) e) e) e) e
    if b.hasForcing then ⟨e.K, addAt e.F (nlocal - 1) (-p.force*p.w*p.J)⟩ else e) e

/-- TDyBDMComputeSystem (src/fe/tdybdm.c:518-523): the boundary faces of one cell.  The error code of
IntegratePressureBoundary is stored and not looked at. -/
def boundaryFaces (b : Bdm) (c : BCell) (F : Nat → ℝ) : Res (Nat → ℝ) :=
  forN c.nFaces (fun i (r : Res (Nat → ℝ)) => r.bind fun F =>
    if (c.face i).isbc && b.hasPressure then integratePressureBoundary b c (c.face i) F else .ok F)
    (.ok F)

/-- TDyBDMComputeSystem (src/fe/tdybdm.c:525-533): orientation flips and the coupling of velocity and
pressure. -/
def orientation (b : Bdm) (c : BCell) (e : Elem) : Elem :=
  let nlocal := b.dim*b.nv + 1
  forN (nlocal - 1) (fun vi e =>
    let F := wr e.F vi (e.F vi*(c.orient vi : ℝ))
    let K := forN (nlocal - 1) (fun vj K =>
      wr K vj (wr (K vj) vi (K vj vi*((c.orient vi*c.orient vj : Int) : ℝ)))) e.K
    let K := wr K (nlocal - 1) (wr (K (nlocal - 1)) vi (-(c.orient vi : ℝ)))
    let K := wr K vi (wr (K vi) (nlocal - 1) (-(c.orient vi : ℝ)))
    ⟨K, F⟩) e

/-- TDyBDMComputeSystem (src/fe/tdybdm.c:469-533): the element matrix and vector of a cell. -/
def element (b : Bdm) (c : BCell) (kinv : Nat → ℝ) : Res Elem :=
  let e := quadrature b c kinv ⟨fun _ _ => 0, fun _ => 0⟩
  match boundaryFaces b c e.F with
  | .ok F => .ok (orientation b c ⟨e.K, F⟩)
  | .err F => .ok (orientation b c ⟨e.K, F⟩)
  | .ub => .ub

/-- TDyBDMComputeSystem (src/fe/tdybdm.c:538-540): `MatSetValues` (rows first) and `VecSetValues` with
`ADD_VALUES`. -/
def addElement (b : Bdm) (c : BCell) (e : Elem) (s : BState) : BState :=
  let nlocal := b.dim*b.nv + 1
  { s with
    K := forN nlocal (fun i K => forN nlocal (fun j K => addMat K (c.ltog i) (c.ltog j) (e.K i j)) K) s.K
    F := forN nlocal (fun i F => addAt F (c.ltog i) (e.F i)) s.F }

/-- TDyBDMComputeSystem (src/fe/tdybdm.c:473): the array `bdm->K` of a cell after
`Inverse(&(bdm->K[dim2*(c-cStart)]),dim)`.  The error code of the inversion is dropped. -/
def inverted (lu : (Nat → ℝ) → Nat → ℝ) (n : Nat) (K : Nat → ℝ) : Nat → ℝ :=
  match inverse lu n K with
  | .ok k => k
  | .err k => k
  | .ub => K

/-- TDyBDMComputeSystem (src/fe/tdybdm.c:461-542): one cell.  The permeability is inverted in place
(line 473). -/
def bdmCell (lu : (Nat → ℝ) → Nat → ℝ) (b : Bdm) (i : Nat) (s : BState) : Res BState :=
  let c := b.cell i
  if !c.owned then .ok s
  else
    let kinv := inverted lu b.dim (s.perm i)
    match element b c kinv with
    | .ok e => .ok (addElement b c e { s with perm := wr s.perm i kinv })
    | .err e => .ok (addElement b c e { s with perm := wr s.perm i kinv })
    | .ub => .ub

/-- TDyBDMComputeSystem (src/fe/tdybdm.c:422-552). -/
def bdmComputeSystem (lu : (Nat → ℝ) → Nat → ℝ) (b : Bdm) (s : BState) : Res BState :=
  forN b.nCells (fun i (r : Res BState) => r.bind (bdmCell lu b i)) (.ok s)

end

end TDy.Fe
