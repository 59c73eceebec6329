import Verif.Model.Bdm

/-!
# Model of the WY method

src/fe/tdywy.c 12-223 and 657-1079: the element matrices, the vertex-local systems, the assembled
system, the velocities and the residual.  Geometry at quadrature points, the maps of setup (`vmap`,
`emap`, `fmap`) and the values of conditions are data of the model.  LAPACK is exact.  Cells are the
points `0, ..., nCells-1` (`cStart` is 0 for every DMPlex).
-/

namespace TDy.Fe

open TDy.Fvtpf (addAt addMat)

noncomputable section

/-- The mesh, the maps of TDySetup_WY, the conditions and the numbering of the rows. -/
structure Wy where
  dim : Nat
  /-- vertices per cell (`ncv`) -/
  nq : Nat
  /-- vertices per face (`nfv`) -/
  nfv : Nat
  nCells : Nat
  fStart : Nat
  fEnd : Nat
  vStart : Nat
  vEnd : Nat
  /-- the points of the star of a vertex, in the order of `DMPlexGetTransitiveClosure` -/
  star : Nat → List Nat
  /-- `vmap[c*nq+q]` -/
  vmap : Nat → Nat → Nat
  /-- `emap[c*nq*dim+k]` -/
  emap : Nat → Nat → Int
  /-- `fmap[nv*(f-fStart)+k]`, by face `f` -/
  fmap : Nat → Nat → Nat
  /-- volume of cells, area of faces -/
  V : Nat → ℝ
  X : Nat → Nat → ℝ
  N : Nat → Nat → ℝ
  /-- faces of a cell -/
  cone : Nat → List Nat
  /-- the face has the label `boundary` = 1 -/
  bc : Nat → Bool
  hasPressure : Bool
  /-- boundary pressure at the centroid of a face -/
  pb : Nat → ℝ
  hasForcing : Bool
  /-- forcing at point `q` of a cell -/
  force : Nat → Nat → ℝ
  /-- `DFinv` and `J` at point `q` of a cell -/
  DFinv : Nat → Nat → Nat → ℝ
  J : Nat → Nat → ℝ
  /-- `DMPlexGetPointGlobal`: `-(row+1)` if another process owns the cell -/
  global : Nat → Int
  /-- `PETSC_USE_DEBUG` -/
  debug : Bool
  tol : ℝ

/-- Pullback (src/fe/tdywy.c:12-58): the inverse of `J DFinv K DFinv^T`, column major.  A singular
matrix is reported. -/
def pullback (n : Nat) (K DFinv : Nat → ℝ) (J : ℝ) : Res (Nat → ℝ) :=
  let M := J • (toMatrix n DFinv*toMatrix n K*(toMatrix n DFinv).transpose)
  open Classical in
  if M.det = 0 then .err (ofMatrix M.transpose) else .ok (ofMatrix M⁻¹.transpose)

/-- TDyWYLocalElementCompute (src/fe/tdywy.c:198-202): `n0` and `n1`. -/
def sideVector (q i : Nat) : Nat → ℝ := fun k => if k = i then elementSide q i else 0

/-- TDyWYLocalElementCompute (src/fe/tdywy.c:163-166,176-180): `Ehat/ehat/ehat*wgt`. -/
def refScale (dim : Nat) : ℝ := (2:ℝ)^dim/((2:ℝ)^dim/2)/((2:ℝ)^dim/2)*(1/2)^dim

/-- `Alocal` by cell, point and entry; `Flocal` by cell. -/
structure Local where
  A : Nat → Nat → Nat → ℝ
  F : Nat → ℝ

/-- TDyWYLocalElementCompute (src/fe/tdywy.c:185-216): one quadrature point of a cell. -/
def localPoint (w : Wy) (K : Nat → Nat → ℝ) (c q : Nat) (l : Local) : Res Local :=
  open Classical in
  if w.J c q < 0 then .err l
  else match pullback w.dim (K c) (w.DFinv c q) (w.J c q) with
  | .ok Kinv =>
    let A := forN w.dim (fun i A => forN w.dim (fun j A =>
      wr A (j*w.dim + i)
        (kDotADotB Kinv (sideVector q i) (sideVector q j) w.dim*refScale w.dim)) A) (l.A c q)
    .ok ⟨wr l.A c (wr (l.A c) q A),
      if w.hasForcing then addAt l.F c (w.force c q*w.J c q) else l.F⟩
  | .err _ => .err l
  | .ub => .ub

/-- TDyWYLocalElementCompute (src/fe/tdywy.c:160-223) -/
def localElementCompute (w : Wy) (K : Nat → Nat → ℝ) (l : Local) : Res Local :=
  forN w.nCells (fun c (r : Res Local) => r.bind fun l =>
    forN w.nq (fun q (r : Res Local) => r.bind (localPoint w K c q)) (.ok ⟨l.A, wr l.F c 0⟩)) (.ok l)

/-- The faces at a vertex: `Amap` (src/fe/tdywy.c:693-697). -/
def Wy.faces (w : Wy) (v : Nat) : List Nat :=
  (w.star v).filter fun p => decide (w.fStart ≤ p) && decide (p < w.fEnd)

/-- The cells at a vertex: `Bmap` (src/fe/tdywy.c:693-697). -/
def Wy.cells (w : Wy) (v : Nat) : List Nat := (w.star v).filter fun p => decide (p < w.nCells)

/-- The loops that look for an entry of a map (src/fe/tdywy.c:731-736,739-744,770-775). -/
def lookup (l : List Nat) (x : Nat) : Option Nat := l.findIdx? (fun p => p == x)

/-- TDyWYComputeSystem (src/fe/tdywy.c:716-722): which corner of cell `c` is vertex `v`. -/
def corner (w : Wy) (c v : Nat) : Option Nat := (List.range w.nq).find? fun q => v == w.vmap c q

/-- `wgt` (src/fe/tdywy.c:681) -/
def wgt (w : Wy) : ℝ := (1/2)^(w.dim - 1)

/-- The face (and sign) of corner `q` of cell `c` in direction `d`. -/
def Wy.face (w : Wy) (c q d : Nat) : Nat := (w.emap c (q*w.dim + d)).natAbs
def Wy.sign (w : Wy) (c q d : Nat) : ℝ := ((w.emap c (q*w.dim + d)).sign : ℝ)

/-- TDyWYComputeSystem (src/fe/tdywy.c:763-788): the row of `A` (`A[local_col*nA+local_row]`). -/
def addRow (w : Wy) (Al : Nat → Nat → Nat → ℝ) (Amap : List Nat) (c q i lr : Nat)
    (A : Nat → Nat → ℝ) : Res (Nat → Nat → ℝ) :=
  forN w.dim (fun j (r : Res (Nat → Nat → ℝ)) => r.bind fun A =>
    match lookup Amap (w.face c q j) with
    | none => .err A
    | some lc => .ok (addMat A lr lc (Al c q (i*w.dim + j)*w.sign c q i*w.sign c q j
        *w.V (w.face c q i)*w.V (w.face c q j)))) (.ok A)

/-- The vertex-local system: `A`, `B` by row and column, `G`. -/
structure VSys where
  A : Nat → Nat → ℝ
  B : Nat → Nat → ℝ
  G : Nat → ℝ

/-- TDyWYComputeSystem (src/fe/tdywy.c:725-789): one direction at one cell. -/
def systemRow (w : Wy) (Al : Nat → Nat → Nat → ℝ) (v c q i : Nat) (s : VSys) : Res VSys :=
  match lookup (w.faces v) (w.face c q i) with
  | none => .err s
  | some lr => match lookup (w.cells v) c with
    | none => .err s
    | some lc =>
      let B := addMat s.B lr lc (wgt w*w.sign c q i*w.V (w.face c q i))
      let G := if w.bc (w.face c q i) && w.hasPressure then
        wr s.G lr (wgt w*w.sign c q i*w.pb (w.face c q i)*w.V (w.face c q i)) else s.G
      match addRow w Al (w.faces v) c q i lr s.A with
      | .ok A => .ok ⟨A, B, G⟩
      | .err A => .err ⟨A, B, G⟩
      | .ub => .ub

/-- TDyWYComputeSystem (src/fe/tdywy.c:711-790): one cell. -/
def systemCell (w : Wy) (Al : Nat → Nat → Nat → ℝ) (v c : Nat) (s : VSys) : Res VSys :=
  match corner w c v with
  | none => .err s
  | some q => forN w.dim (fun i (r : Res VSys) => r.bind (systemRow w Al v c q i)) (.ok s)

/-- The arrays hold `MAX_LOCAL_SIZE` = 144 entries (src/fe/tdywy.c:10). -/
def tooLarge (w : Wy) (v : Nat) : Prop :=
  144 < max (w.faces v).length (w.cells v).length*max (w.faces v).length (w.cells v).length

instance (w : Wy) (v : Nat) : Decidable (tooLarge w v) := by unfold tooLarge; infer_instance

/-- TDyWYComputeSystem (src/fe/tdywy.c:692-790): the local system of a vertex.  The size is checked in
debug builds only; otherwise arrays are written past their end. -/
def vertexSystem (w : Wy) (Al : Nat → Nat → Nat → ℝ) (v : Nat) : Res VSys :=
  if tooLarge w v then (if w.debug then .err ⟨fun _ _ => 0, fun _ _ => 0, fun _ => 0⟩ else .ub)
  else (w.cells v).foldl (fun (r : Res VSys) c => r.bind (systemCell w Al v c))
    (.ok ⟨fun _ _ => 0, fun _ _ => 0, fun _ => 0⟩)

/-- The matrix with `n` rows and `m` columns. -/
def mat (n m : Nat) (a : Nat → Nat → ℝ) : Matrix (Fin n) (Fin m) ℝ := Matrix.of fun i j => a i j

/-- A vector of length `n`. -/
def vec (n : Nat) (a : Nat → ℝ) : Fin n → ℝ := fun i => a i

/-- FormStencil (src/fe/tdywy.c:60-108): `C = B^T A^-1 B` and `D = B^T A^-1 G`; a singular `A` is
reported. -/
def formStencil (q r : Nat) (s : VSys) : Res (Matrix (Fin r) (Fin r) ℝ × (Fin r → ℝ)) :=
  let A := mat q q s.A
  let B := mat q r s.B
  open Classical in
  if A.det = 0 then .err (0, 0)
  else .ok (B.transpose*A⁻¹*B, (B.transpose*A⁻¹).mulVec (vec q s.G))

/-- The assembled matrix and vector. -/
structure Sys where
  K : Nat → Nat → ℝ
  F : Nat → ℝ

/-- The row of a cell, owned or not (src/fe/tdywy.c:808). -/
def Wy.row (w : Wy) (c : Nat) : Nat :=
  if w.global c < 0 then (-w.global c - 1).toNat else (w.global c).toNat

/-- TDyWYComputeSystem (src/fe/tdywy.c:797-798): the largest entry. -/
def maxAbs (r : Nat) (C : Nat → Nat → ℝ) : ℝ :=
  forN r (fun i m => forN r (fun j m => max m |C j i|) m) 0

/-- The entries of a matrix. -/
def entry {r : Nat} (C : Matrix (Fin r) (Fin r) ℝ) (i j : Nat) : ℝ :=
  if h : i < r ∧ j < r then C ⟨i, h.1⟩ ⟨j, h.2⟩ else 0

def entry1 {r : Nat} (D : Fin r → ℝ) (i : Nat) : ℝ := if h : i < r then D ⟨i, h⟩ else 0

/-- TDyWYComputeSystem (src/fe/tdywy.c:799-811): the stencil goes to the rows of the cells this process
owns.  Entries below `tol*maxC` are left out.  `C[q*nB+c]` is column major: row `c`, column `q`. -/
def insertStencil (w : Wy) (cells : List Nat) (C : Nat → Nat → ℝ) (D : Nat → ℝ) (s : Sys) : Sys :=
  let nB := cells.length
  let maxC := maxAbs nB C
  forN nB (fun c s =>
    let cc := cells.getD c 0
    if w.global cc < 0 then s
    else forN nB (fun q s =>
      open Classical in
      if |C c q| < w.tol*maxC then s
      else ⟨addMat s.K (w.row cc) (w.row (cells.getD q 0)) (C c q), s.F⟩)
      ⟨s.K, addAt s.F (w.row cc) (D c)⟩) s

/-- TDyWYComputeSystem (src/fe/tdywy.c:688-813): one vertex. -/
def systemVertex (w : Wy) (Al : Nat → Nat → Nat → ℝ) (v : Nat) (s : Sys) : Res Sys :=
  match vertexSystem w Al v with
  | .ok t => match formStencil (w.faces v).length (w.cells v).length t with
    | .ok (C, D) => .ok (insertStencil w (w.cells v) (entry C) (entry1 D) s)
    | .err _ => .err s
    | .ub => .ub
  | .err _ => .err s
  | .ub => .ub

/-- TDyWYComputeSystem (src/fe/tdywy.c:815-821): the forcing. -/
def systemForcing (w : Wy) (Fl : Nat → ℝ) (s : Sys) : Sys :=
  forN w.nCells (fun c s => if w.global c < 0 then s else ⟨s.K, addAt s.F (w.row c) (Fl c)⟩) s

/-- TDyWYComputeSystem (src/fe/tdywy.c:657-824), from the permeabilities `K` and the previous contents
`l` of `Alocal` and `Flocal`. -/
def wyComputeSystem (w : Wy) (K : Nat → Nat → ℝ) (l : Local) (s : Sys) : Res (Local × Sys) :=
  match localElementCompute w K l with
  | .ok l =>
    match forN (w.vEnd - w.vStart) (fun k (r : Res Sys) => r.bind (systemVertex w l.A (w.vStart + k)))
      (.ok s) with
    | .ok s => .ok (l, systemForcing w l.F s)
    | .err s => .err (l, s)
    | .ub => .ub
  | .err l => .err (l, s)
  | .ub => .ub

/-- TDyWYRecoverVelocity (src/fe/tdywy.c:885-946): the vertex-local `A` and `F`. -/
structure VVel where
  A : Nat → Nat → ℝ
  F : Nat → ℝ

/-- TDyWYRecoverVelocity (src/fe/tdywy.c:887-945): one direction at one cell with pressure `u c`.
`B P` and the boundary pressure are added. -/
def velocityRow (w : Wy) (Al : Nat → Nat → Nat → ℝ) (u : Nat → ℝ) (v c q i : Nat) (s : VVel) : Res VVel :=
  match lookup (w.faces v) (w.face c q i) with
  | none => .err s
  | some lr => match lookup (w.cells v) c with
    | none => .err s
    | some _ =>
      let F := addAt s.F lr (wgt w*w.sign c q i*u c*w.V (w.face c q i))
      let F := if w.bc (w.face c q i) && w.hasPressure then
        addAt F lr (-wgt w*w.sign c q i*w.pb (w.face c q i)*w.V (w.face c q i)) else F
      match addRow w Al (w.faces v) c q i lr s.A with
      | .ok A => .ok ⟨A, F⟩
      | .err A => .err ⟨A, F⟩
      | .ub => .ub

/-- TDyWYRecoverVelocity (src/fe/tdywy.c:873-947): one cell. -/
def velocityCell (w : Wy) (Al : Nat → Nat → Nat → ℝ) (u : Nat → ℝ) (v c : Nat) (s : VVel) : Res VVel :=
  match corner w c v with
  | none => .err s
  | some q => forN w.dim (fun i (r : Res VVel) => r.bind (velocityRow w Al u v c q i)) (.ok s)

/-- TDyWYRecoverVelocity (src/fe/tdywy.c:856-947): the local system of a vertex.  The size is not
checked. -/
def vertexVelocity (w : Wy) (Al : Nat → Nat → Nat → ℝ) (u : Nat → ℝ) (v : Nat) : Res VVel :=
  if 144 < (w.faces v).length*(w.faces v).length then .ub
  else (w.cells v).foldl (fun (r : Res VVel) c => r.bind (velocityCell w Al u v c))
    (.ok ⟨fun _ _ => 0, fun _ => 0⟩)

/-- RecoverVelocity (src/fe/tdywy.c:110-139): `A^-1 F`; a singular `A` is reported. -/
def recoverVelocity (q : Nat) (s : VVel) : Res (Fin q → ℝ) :=
  let A := mat q q s.A
  open Classical in
  if A.det = 0 then .err (vec q s.F) else .ok (A⁻¹.mulVec (vec q s.F))

/-- TDyWYRecoverVelocity (src/fe/tdywy.c:952-960): the velocities go to the place of the vertex in the
list of the vertices of each face; `vel` by face and place. -/
def storeVelocity (w : Wy) (v : Nat) (u : Nat → ℝ) (vel : Nat → Nat → ℝ) : Nat → Nat → ℝ :=
  forN (w.faces v).length (fun q vel =>
    let f := (w.faces v).getD q 0
    match (List.range w.nfv).find? fun k => v == w.fmap f k with
    | none => vel
    | some k => wr vel f (wr (vel f) k (u q))) vel

/-- TDyWYRecoverVelocity (src/fe/tdywy.c:853-963): one vertex. -/
def velocityVertex (w : Wy) (Al : Nat → Nat → Nat → ℝ) (u : Nat → ℝ) (v : Nat) (vel : Nat → Nat → ℝ) :
    Res (Nat → Nat → ℝ) :=
  match vertexVelocity w Al u v with
  | .ok t => match recoverVelocity (w.faces v).length t with
    | .ok x => .ok (storeVelocity w v (entry1 x) vel)
    | .err _ => .err vel
    | .ub => .ub
  | .err _ => .err vel
  | .ub => .ub

/-- TDyWYRecoverVelocity (src/fe/tdywy.c:826-971) from the local pressures `u` (one per cell). -/
def wyRecoverVelocity (w : Wy) (Al : Nat → Nat → Nat → ℝ) (u : Nat → ℝ) (vel : Nat → Nat → ℝ) :
    Res (Nat → Nat → ℝ) :=
  forN (w.vEnd - w.vStart) (fun k (r : Res (Nat → Nat → ℝ)) =>
    r.bind (velocityVertex w Al u (w.vStart + k))) (.ok vel)

/-- TDyWYResidual (src/fe/tdywy.c:1056-1057): the sign of `N_f . (X_f - X_c)`. -/
def Wy.outSign (w : Wy) (c f : Nat) : ℝ :=
  open Classical in
  if aDotBMinusC (w.N f) (w.X f) (w.X c) w.dim < 0 then -1
  else if aDotBMinusC (w.N f) (w.X f) (w.X c) w.dim = 0 then 0 else 1

/-- TDyWYResidual (src/fe/tdywy.c:1047-1061): the divergence.  The size of the cone of a face is the
number of its vertices, for edges and for polygons. -/
def wyDivergence (w : Wy) (vel : Nat → Nat → ℝ) (c : Nat) : ℝ :=
  (w.cone c).foldl (fun div f =>
    forN w.nfv (fun j div => div + w.outSign c f*vel f j*(1/(w.nfv : ℝ))*w.V f) div) 0

/-- TDyWYResidual (src/fe/tdywy.c:1039-1064), after the state has been updated: `porosity`, `dSdP` and
the permeabilities `K` by cell, pressures `u` and their rates `dpdt`.  Residuals of cells of other
processes are not written. -/
def wyResidual (w : Wy) (K : Nat → Nat → ℝ) (porosity dSdP u dpdt : Nat → ℝ) (l : Local)
    (vel : Nat → Nat → ℝ) (R : Nat → ℝ) : Res (Nat → ℝ) :=
  match localElementCompute w K l with
  | .ok l => match wyRecoverVelocity w l.A u vel with
    | .ok vel => .ok (forN w.nCells (fun c R => if w.global c < 0 then R else
        wr R c (porosity c*dSdP c*dpdt c + wyDivergence w vel c - l.F c)) R)
    | .err _ => .err R
    | .ub => .ub
  | .err _ => .err R
  | .ub => .ub

end

end TDy.Fe
