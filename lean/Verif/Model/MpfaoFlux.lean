import Verif.Model.Fvtpf
import Mathlib.Algebra.BigOperators.Group.Finset.Basic

/-!
# Model of the Richards residual and Jacobian of the MPFA-O method

src/fv/mpfao/tdympfao_ts.c, src/fv/mpfao/tdympfao_snes.c, src/fv/mpfao/tdympfao_ts_transientvar.c.

A subface is a pair (vertex, row): row `i` of vertex `v` is the part of face `face i` next to `v`.
The vectors with one entry per subface (`TtimesP_vec`, `GravDisVec`) are indexed by
`face*4 + subface`.  The struct of arrays `TDyMPFAO` is modelled as arrays of `Side`s, as for the
two-point flux method.  Cells are numbered by their local number; the entries of the vectors of
the owned cells come first, so that local number and vector entry agree (the code relies on this).
-/

namespace TDy.Mpfao

open TDy.Fvtpf (Side Bc addAt addMat)

noncomputable section

/-- What is stored about a vertex. -/
structure Vert where
  /-- `vertices->is_local` -/
  isLocal : Bool
  /-- `vertices->num_faces`; `nflux_in + npitf_bc` in the code -/
  nRows : Nat
  /-- `TDyMeshGetVertexFaces` -/
  face : Nat → Nat
  /-- `TDyMeshGetVertexSubfaces` -/
  subface : Nat → Nat
  /-- The number under which the rows are saved in `Trans_mat`: that of `TDyMeshGetVertexSubfaces`
  (tdympfao.c 1454), at corners the position of the vertex in the list of the face (tdympfao.c
  1629-1638) -/
  wsub : Nat → Nat
  /-- `vertices->num_internal_cells` -/
  nCells : Nat
  /-- `vertices->internal_cell_ids` -/
  cell : Nat → Nat
  /-- `Trans[vertex][row][col]` -/
  T : Nat → Nat → ℝ
  /-- number of entries added to a row of `Trans_mat` -/
  nCols : Nat
  /-- their columns -/
  col : Nat → Nat
  /-- their values -/
  M : Nat → Nat → ℝ

/-- What is stored about a face: its cells (negative numbers are boundary faces). -/
structure MFace where
  up : ℤ
  dn : ℤ
  isLocal : Bool

/-- The mesh and the `TDyMPFAO` context. -/
structure Ctx where
  numVertices : Nat
  numCells : Nat
  numBnd : Nat
  vert : Nat → Vert
  face : Nat → MFace
  isLocal : Nat → Bool
  vol : Nat → ℝ
  por : Nat → ℝ
  source : Nat → ℝ
  cells : Nat → Side
  d2S : Nat → ℝ
  d2rho : Nat → ℝ
  bnds : Nat → Side
  bc : Bc
  Pref : ℝ
  grav : Nat → ℝ

/-! ## Transmissibility matrix and its product with the pressures -/

/-- `face_id*num_subfaces + subface_id`, tdympfao_ts.c 58, 91; tdympfao.c 1456. -/
def slot (w : Vert) (i : Nat) : Nat := w.face i*4 + w.subface i

/-- The row of `Trans_mat` that is written, tdympfao.c 1456, 1638. -/
def wslot (w : Vert) (i : Nat) : Nat := w.face i*4 + w.wsub i

/-- tdympfao.c 1454-1471 and 1617-1644: the entries row `i` of a vertex adds to `Trans_mat`. -/
def addRow (w : Vert) (i : Nat) (A : Nat → Nat → ℝ) : Nat → Nat → ℝ :=
  forN w.nCols (fun j A => addMat A (wslot w i) (w.col j) (w.M i j)) A

/-- tdympfao.c 1801-1840, `ComputeTransmissibilityMatrix`: the loop over the local vertices. -/
def transMat (c : Ctx) : Nat → Nat → ℝ :=
  forN c.numVertices (fun v A =>
    if !(c.vert v).isLocal then A
    else forN (c.vert v).nRows (fun i A => addRow (c.vert v) i A) A) (fun _ _ => 0)

/-- `P_vec`, tdympfao_utils.c 690-757, `TDyMPFAO_SetBoundaryPressure`: the pressures of the cells,
then those of the boundary faces. -/
def pVec (c : Ctx) (j : Nat) : ℝ :=
  if j < c.numCells then (c.cells j).P else (c.bnds (j - c.numCells)).P

/-- `MatMult(Trans_mat, P_vec, TtimesP_vec)`, tdympfao_ts.c 184. -/
def ttimesP (c : Ctx) (row : Nat) : ℝ :=
  ∑ j ∈ Finset.range (c.numCells + c.numBnd), transMat c row j*pVec c j

/-! ## Flux through a subface -/

/-- The cell, or for a negative number the boundary face, on one side of a face
(`X[id]` or `X_bnd[-id-1]`). -/
def side (c : Ctx) (id : ℤ) : Side :=
  if 0 ≤ id then c.cells id.toNat else c.bnds (-id - 1).toNat

/-- tdympfao_ts.c 73-86: average density. -/
def denAvg (c : Ctx) (f : MFace) : ℝ :=
  (0.0 + (side c f.up).rho + (side c f.dn).rho)*0.5

/-- tdympfao_ts.c 92: `TtimesP + den*G`. -/
def driving (c : Ctx) (f : MFace) (TP G : ℝ) : ℝ := TP + denAvg c f*G

/-- tdympfao_ts.c 92-122: mobility of the upwind side. -/
def ukvr (c : Ctx) (f : MFace) (TP G : ℝ) : ℝ :=
  if driving c f TP G < 0.0 then (side c f.up).Kr/(side c f.up).vis
  else (side c f.dn).Kr/(side c f.dn).vis

/-- tdympfao_ts.c 105-107, 119-121: `set_flow_to_zero`. -/
def shut (c : Ctx) (f : MFace) (TP G : ℝ) : Prop :=
  if driving c f TP G < 0.0 then f.up < 0 ∧ c.bc = .seepage ∧ (side c f.up).P ≤ c.Pref
  else f.dn < 0 ∧ c.bc = .seepage ∧ (side c f.dn).P ≤ c.Pref

open Classical in
/-- tdympfao_ts.c 124-128: mass flux from the up to the down side. -/
def fluxm (c : Ctx) (f : MFace) (TP G : ℝ) : ℝ :=
  if shut c f TP G then 0.0
  else denAvg c f*ukvr c f TP G*(-TP) + -denAvg c f ^ (2:ℕ)*ukvr c f TP G*G

/-- The mass flux through row `i` of vertex `v`. -/
def subfaceFlux (c : Ctx) (v i : Nat) : ℝ :=
  fluxm c (c.face ((c.vert v).face i)) (ttimesP c (slot (c.vert v) i)) (c.grav (slot (c.vert v) i))

/-! ## The loops over vertices and subfaces -/

/-- tdympfao_ts.c 131-137: a flux `q` from the up to the down side of face `f`, for the cells of
this rank. -/
def scatterFlux (c : Ctx) (f : MFace) (q : ℝ) (r : Nat → ℝ) : Nat → ℝ :=
  let r := if 0 ≤ f.up ∧ c.isLocal f.up.toNat = true then addAt r f.up.toNat q else r
  if 0 ≤ f.dn ∧ c.isLocal f.dn.toNat = true then addAt r f.dn.toNat (-q) else r

/-- tdympfao_ts.c 33-140: the loop over the local vertices and their local faces, with the flux
`q v i` through row `i` of vertex `v`. -/
def vertexLoop (c : Ctx) (q : Nat → Nat → ℝ) (r : Nat → ℝ) : Nat → ℝ :=
  forN c.numVertices (fun v r =>
    if !(c.vert v).isLocal then r
    else forN (c.vert v).nRows (fun i r =>
      if !(c.face ((c.vert v).face i)).isLocal then r
      else scatterFlux c (c.face ((c.vert v).face i)) (q v i) r) r) r

/-- tdympfao_ts.c 12-150, `TDyMPFAOIFunction_Vertices`. -/
def ifunctionVertices (c : Ctx) (r : Nat → ℝ) : Nat → ℝ := vertexLoop c (subfaceFlux c) r

/-! ## Residuals -/

/-- tdympfao_ts.c 196-207, tdympfao_snes.c 173-175: derivative of the mass per volume with respect
to the pressure. -/
def dmassdP (c : Ctx) (i : Nat) : ℝ :=
  let s := c.cells i
  s.rho*0.0*s.S + s.drho*c.por i*s.S + s.rho*c.por i*s.dSdP

/-- tdympfao_ts.c 191-213: accumulation and sources of `TDyMPFAOIFunction`. -/
def tsCellLoop (c : Ctx) (dpdt : Nat → ℝ) (r : Nat → ℝ) : Nat → ℝ :=
  forN c.numCells (fun i r =>
    if !c.isLocal i then r
    else addAt (addAt r i (dmassdP c i*dpdt i*c.vol i)) i (-(c.source i*c.vol i))) r

/-- tdympfao_ts.c 153-226, `TDyMPFAOIFunction`, after the state has been updated. -/
def tsFunction (c : Ctx) (dpdt : Nat → ℝ) : Nat → ℝ :=
  tsCellLoop c dpdt (ifunctionVertices c (fun _ => 0))

/-- tdympfao_snes.c 19-30, `TDyMPFAOSNESAccumulation`. -/
def snesAccum (c : Ctx) (dtime : ℝ) (i : Nat) : ℝ :=
  (c.cells i).rho*c.por i*(c.cells i).S*c.vol i/dtime

/-- tdympfao_snes.c 112-123: accumulation and sources of `TDyMPFAOSNESFunction`. -/
def snesCellLoop (c : Ctx) (dtime : ℝ) (accumPrev : Nat → ℝ) (r : Nat → ℝ) : Nat → ℝ :=
  forN c.numCells (fun i r =>
    if !c.isLocal i then r
    else addAt (addAt r i (snesAccum c dtime i - accumPrev i)) i (-c.source i)) r

/-- tdympfao_snes.c 67-140, `TDyMPFAOSNESFunction`, after the state has been updated. -/
def snesFunction (c : Ctx) (dtime : ℝ) (accumPrev : Nat → ℝ) : Nat → ℝ :=
  snesCellLoop c dtime accumPrev (ifunctionVertices c (fun _ => 0))

/-- tdympfao_snes.c 32-64, `TDyMPFAOSNESPreSolve`: `accumulation_prev` from the state at the
previous solution. -/
def preSolve (c : Ctx) (dtime : ℝ) (old : Nat → ℝ) : Nat → ℝ :=
  forN c.numCells (fun i a => if !c.isLocal i then a else wr a i (snesAccum c dtime i)) old

/-- tdympfao_ts_transientvar.c 37-42, `TDyMPFAOTransientVariable`: the variable whose time
derivative the transient form takes. -/
def transientVar (c : Ctx) (old : Nat → ℝ) : Nat → ℝ :=
  forN c.numCells (fun i a =>
    if !c.isLocal i then a
    else wr a i ((c.cells i).rho*c.por i*(c.cells i).S*c.vol i)) old

/-- tdympfao_ts_transientvar.c 87-94, `TDyMPFAOIFunction_TransientVariable`: accumulation and
sources. -/
def transientCellLoop (c : Ctx) (dmdt : Nat → ℝ) (r : Nat → ℝ) : Nat → ℝ :=
  forN c.numCells (fun i r =>
    if !c.isLocal i then r
    else addAt (addAt r i (dmdt i*c.vol i)) i (-(c.source i*c.vol i))) r

/-- tdympfao_ts_transientvar.c 52-105, `TDyMPFAOIFunction_TransientVariable`. -/
def transientFunction (c : Ctx) (dmdt : Nat → ℝ) : Nat → ℝ :=
  transientCellLoop c dmdt (ifunctionVertices c (fun _ => 0))

/-- tdympfao_ts_dae.c 13-83, `TDyMPFAOIFunction_DAE`, for one cell: unknowns are pressure and
mass `m`, with time derivative `mt`; `rp` is the flux part.  The two entries are the residuals of
the balance and of the constraint. -/
def daeCell (c : Ctx) (m mt rp : Nat → ℝ) (i : Nat) : ℝ × ℝ :=
  (mt i*c.vol i - c.source i*c.vol i + rp i,
   m i - (c.cells i).rho*c.por i*(c.cells i).S*c.vol i)

/-! ## Jacobian -/

/-- tdympfao_ts.c 312-325: average density, as the Jacobian computes it. -/
def denAvgJ (c : Ctx) (f : MFace) : ℝ := 0.0 + 0.5*(side c f.up).rho + 0.5*(side c f.dn).rho

/-- tdympfao_ts.c 312-325: derivative of the average density with respect to the pressure of the
cell on one side; 0 for a boundary face. -/
def dden (c : Ctx) (id : ℤ) : ℝ := if 0 ≤ id then 0.5*(c.cells id.toNat).drho else 0.0

/-- tdympfao_ts.c 341, 367: derivative of the mobility of a cell. -/
def dukvrCell (s : Side) : ℝ := s.dKrdS*s.dSdP/s.vis - s.Kr/(s.vis*s.vis)*s.dvis

/-- tdympfao_ts.c 299-384: the quantities the Jacobian of a subface is made of, with the upwind
decision taken from the Jacobian's own average density. -/
def drivingJ (c : Ctx) (f : MFace) (TP G : ℝ) : ℝ := TP + denAvgJ c f*G

/-- tdympfao_ts.c 340, 348, 366, 374. -/
def ukvrJ (c : Ctx) (f : MFace) (TP G : ℝ) : ℝ :=
  if drivingJ c f TP G < 0.0 then (side c f.up).Kr/(side c f.up).vis
  else (side c f.dn).Kr/(side c f.dn).vis

/-- `dukvr_dPup`, tdympfao_ts.c 304, 341, 349. -/
def dukvrUp (c : Ctx) (f : MFace) (TP G : ℝ) : ℝ :=
  if drivingJ c f TP G < 0.0 then (if 0 ≤ f.up then dukvrCell (side c f.up) else 0.0) else 0.0

/-- `dukvr_dPdn`, tdympfao_ts.c 305, 367, 375. -/
def dukvrDn (c : Ctx) (f : MFace) (TP G : ℝ) : ℝ :=
  if drivingJ c f TP G < 0.0 then 0.0 else (if 0 ≤ f.dn then dukvrCell (side c f.dn) else 0.0)

/-- `set_jac_to_zero`, tdympfao_ts.c 351-353, 377-379. -/
def shutJ (c : Ctx) (f : MFace) (TP G : ℝ) : Prop :=
  if drivingJ c f TP G < 0.0 then f.up < 0 ∧ c.bc = .seepage ∧ (side c f.up).P ≤ c.Pref
  else f.dn < 0 ∧ c.bc = .seepage ∧ (side c f.dn).P ≤ c.Pref

open Classical in
/-- tdympfao_ts.c 395-418: `Jac` for the column of cell `k` with transmissibility `T`, before the
change of sign. -/
def jacEntry (c : Ctx) (f : MFace) (TP G T : ℝ) (k : Nat) : ℝ :=
  let den := denAvgJ c f
  let uk := ukvrJ c f TP G
  if shutJ c f TP G then 0.0
  else if f.up > -1 ∧ (k : ℤ) = f.up then
    dden c f.up*uk*TP + den*dukvrUp c f TP G*TP + den*uk*T +
      2*den*dden c f.up*uk*G + den ^ (2:ℕ)*dukvrUp c f TP G*G
  else if f.dn > -1 ∧ (k : ℤ) = f.dn then
    dden c f.dn*uk*TP + den*dukvrDn c f TP G*TP + den*uk*T +
      2*den*dden c f.dn*uk*G + den ^ (2:ℕ)*dukvrDn c f TP G*G
  else den*uk*T

/-- tdympfao_ts.c 270-282: `TtimesP[irow]` of the Jacobian; the entry of a face that is not local
is not initialised. -/
def jacTP (c : Ctx) (junk : Nat → Nat → ℝ) (v i : Nat) : ℝ :=
  if (c.face ((c.vert v).face i)).isLocal then ttimesP c (slot (c.vert v) i) else junk v i

/-- tdympfao_ts.c 420-421: `Jac = -Jac` for column `k` of row `i` of vertex `v`. -/
def jacValue (c : Ctx) (junk : Nat → Nat → ℝ) (v i k : Nat) : ℝ :=
  -jacEntry c (c.face ((c.vert v).face i)) (jacTP c junk v i) (c.grav (slot (c.vert v) i))
    ((c.vert v).T i k) ((c.vert v).cell k)

/-- tdympfao_ts.c 390-443: the row of one side of the face; the columns of a cell that is not local
are -1, which `MatSetValuesLocal` ignores. -/
def addJacRow (c : Ctx) (id : ℤ) (n : Nat) (cell : Nat → Nat) (val : Nat → ℝ)
    (B : Nat → Nat → ℝ) : Nat → Nat → ℝ :=
  if 0 ≤ id then
    forN n (fun k B =>
      if c.isLocal id.toNat = true then addMat B id.toNat (cell k) (val k) else B) B
  else B

/-- tdympfao_ts.c 297-443: one subface of the Jacobian. -/
def jacSubface (c : Ctx) (junk : Nat → Nat → ℝ) (v i : Nat) (B : Nat → Nat → ℝ) : Nat → Nat → ℝ :=
  let w := c.vert v
  let f := c.face (w.face i)
  if c.bc = .neumann ∧ (f.up < 0 ∨ f.dn < 0) then B
  else
    addJacRow c f.dn w.nCells w.cell (fun k => -jacValue c junk v i k)
      (addJacRow c f.up w.nCells w.cell (jacValue c junk v i) B)

/-- tdympfao_ts.c 235-456, `TDyMPFAOIJacobian_Vertices`: all vertices, local or not. -/
def ijacobianVertices (c : Ctx) (junk : Nat → Nat → ℝ) (B : Nat → Nat → ℝ) : Nat → Nat → ℝ :=
  forN c.numVertices (fun v B =>
    forN (c.vert v).nRows (fun i B => jacSubface c junk v i B) B) B

/-- tdympfao_ts.c 496-506: second derivative of the mass per volume. -/
def d2massdP2 (c : Ctx) (i : Nat) : ℝ :=
  let s := c.cells i
  s.dSdP*s.rho*0.0 + s.S*s.drho*0.0 + s.S*s.rho*0.0 + s.dSdP*s.drho*c.por i +
    s.S*c.d2rho i*c.por i + s.S*s.drho*0.0 + c.d2S i*s.rho*c.por i + s.dSdP*s.drho*c.por i +
    s.dSdP*s.rho*0.0

/-- tdympfao_ts.c 508. -/
def tsJacAccum (c : Ctx) (shift : ℝ) (dpdt : Nat → ℝ) (i : Nat) : ℝ :=
  (shift*dmassdP c i + d2massdP2 c i*dpdt i)*c.vol i

/-- tdympfao_ts.c 459-522, `TDyMPFAOIJacobian_Accumulation`. -/
def tsJacCellLoop (c : Ctx) (shift : ℝ) (dpdt : Nat → ℝ) (B : Nat → Nat → ℝ) : Nat → Nat → ℝ :=
  forN c.numCells (fun i B =>
    if !c.isLocal i then B else addMat B i i (tsJacAccum c shift dpdt i)) B

/-- tdympfao_ts.c 525-587, `TDyMPFAOIJacobian`; it does not update the state. -/
def tsJacobian (c : Ctx) (junk : Nat → Nat → ℝ) (shift : ℝ) (dpdt : Nat → ℝ) : Nat → Nat → ℝ :=
  tsJacCellLoop c shift dpdt (ijacobianVertices c junk (fun _ _ => 0))

/-- tdympfao_snes.c 166-179. -/
def snesJacCellLoop (c : Ctx) (dtime : ℝ) (B : Nat → Nat → ℝ) : Nat → Nat → ℝ :=
  forN c.numCells (fun i B =>
    if !c.isLocal i then B else addMat B i i (dmassdP c i*c.vol i*(1.0/dtime))) B

/-- tdympfao_snes.c 143-203, `TDyMPFAOSNESJacobian`; it does not update the state. -/
def snesJacobian (c : Ctx) (junk : Nat → Nat → ℝ) (dtime : ℝ) : Nat → Nat → ℝ :=
  snesJacCellLoop c dtime (ijacobianVertices c junk (fun _ _ => 0))

end

end TDy.Mpfao
