import Verif.Model.MpfaoFlux

/-!
# Model of the coupled MPFA-O modes: water and salt, water and heat

src/fv/mpfao/tdympfao_snes_salinity.c, src/fv/mpfao/tdympfao_th_ts.c.

Both modes have two unknowns per cell: entry `2*i` of a vector belongs to the water balance of cell
`i`, entry `2*i+1` to its salt or energy balance.
-/

namespace TDy.Mpfao

open TDy.Fvtpf (Side Bc addAt addMat)

noncomputable section

/-! ## Two balances per cell -/

/-- tdympfao_snes_salinity.c 197-204, tdympfao_th_ts.c 125-132: the fluxes `q0` and `q1` from the up
to the down side of face `f`, for the cells of this rank. -/
def scatterFlux2 (c : Ctx) (f : MFace) (q0 q1 : ℝ) (r : Nat → ℝ) : Nat → ℝ :=
  let r := if 0 ≤ f.up ∧ c.isLocal f.up.toNat = true then
      addAt (addAt r (2*f.up.toNat) q0) (2*f.up.toNat + 1) q1 else r
  if 0 ≤ f.dn ∧ c.isLocal f.dn.toNat = true then
    addAt (addAt r (2*f.dn.toNat) (-q0)) (2*f.dn.toNat + 1) (-q1) else r

/-- tdympfao_snes_salinity.c 120-206, tdympfao_th_ts.c 48-135: the loop over the local vertices and
their local faces. -/
def vertexLoop2 (c : Ctx) (q0 q1 : Nat → Nat → ℝ) (r : Nat → ℝ) : Nat → ℝ :=
  forN c.numVertices (fun v r =>
    if !(c.vert v).isLocal then r
    else forN (c.vert v).nRows (fun i r =>
      if !(c.face ((c.vert v).face i)).isLocal then r
      else scatterFlux2 c (c.face ((c.vert v).face i)) (q0 v i) (q1 v i) r) r) r

/-- tdympfao_snes_salinity.c 149-168, tdympfao_th_ts.c 78-105: mobility of the upwind side; gravity
does not take part in the decision. -/
def ukvrTP (c : Ctx) (f : MFace) (TP : ℝ) : ℝ :=
  if TP < 0.0 then (side c f.up).Kr/(side c f.up).vis else (side c f.dn).Kr/(side c f.dn).vis

/-! ## Salinity -/

/-- Salinity mode: the Richards context, where the water properties of the cells and boundaries are
those at the given concentrations, and what is stored about the salt. -/
structure Sal where
  base : Ctx
  /-- vertices with one cell, `vertices->num_internal_cells == 1` -/
  corner : Nat → Bool
  /-- the entries each row of a vertex would add to `Psi_Trans_mat` -/
  psiM : Nat → Nat → Nat → ℝ
  /-- `Psi` of the cells, `U[2*i+1]` -/
  psi : Nat → ℝ
  psiBnd : Nat → ℝ
  /-- `salinity_source_sink` -/
  saltSource : Nat → ℝ

/-- `Psi_Trans_mat`: only corner vertices fill it, and only with a Dirichlet or seepage boundary
(tdympfao.c 1617-1644, 1832-1845; `ComputeTransmissibilityMatrix_ForNonCornerVertex` 1126-1513 has
no code for it). -/
def psiMat (s : Sal) : Nat → Nat → ℝ :=
  forN s.base.numVertices (fun v A =>
    if !(s.base.vert v).isLocal then A
    else if s.corner v = true ∧ s.base.bc ≠ .neumann then
      forN (s.base.vert v).nRows (fun i A =>
        addRow { s.base.vert v with M := s.psiM v } i A) A
    else A) (fun _ _ => 0)

/-- `Psi_vec`: the concentrations of the cells, then those of the boundary faces,
tdympfao_utils.c 690-757. -/
def psiVec (s : Sal) (j : Nat) : ℝ :=
  if j < s.base.numCells then s.psi j else s.psiBnd (j - s.base.numCells)

/-- `MatMult(Psi_Trans_mat, Psi_vec, TtimesPsi_vec)`, tdympfao_snes_salinity.c 258. -/
def ttimesPsi (s : Sal) (row : Nat) : ℝ :=
  ∑ j ∈ Finset.range (s.base.numCells + s.base.numBnd), psiMat s row j*psiVec s j

/-- tdympfao_snes_salinity.c 185-191: water flux. -/
def salFluxm (s : Sal) (v i : Nat) : ℝ :=
  let f := s.base.face ((s.base.vert v).face i)
  let TP := ttimesP s.base (slot (s.base.vert v) i)
  let flow := ukvrTP s.base f TP*(-TP)
  denAvg s.base f*flow +
    -denAvg s.base f ^ (2:ℕ)*ukvrTP s.base f TP*s.base.grav (slot (s.base.vert v) i)

/-- tdympfao_snes_salinity.c 187, 193-194: salt flux. -/
def salFluxt (s : Sal) (v i : Nat) : ℝ :=
  let f := s.base.face ((s.base.vert v).face i)
  let TP := ttimesP s.base (slot (s.base.vert v) i)
  let flow := ukvrTP s.base f TP*(-TP)
  denAvg s.base f*flow - denAvg s.base f*ttimesPsi s (slot (s.base.vert v) i)

/-- tdympfao_snes_salinity.c 35-48, `TDyMPFAOSNESAccumulationTransport`; the water accumulation,
20-33, is `snesAccum`. -/
def saltAccum (s : Sal) (dtime : ℝ) (i : Nat) : ℝ :=
  (s.base.cells i).rho*s.base.por i*(s.base.cells i).S*s.psi i*s.base.vol i/dtime

/-- tdympfao_snes_salinity.c 265-287: accumulation and sources. -/
def salCellLoop (s : Sal) (dtime : ℝ) (prev : Nat → ℝ) (r : Nat → ℝ) : Nat → ℝ :=
  forN s.base.numCells (fun i r =>
    if !s.base.isLocal i then r
    else
      addAt (addAt (addAt (addAt r (2*i) (snesAccum s.base dtime i - prev (2*i)))
        (2*i) (-s.base.source i))
        (2*i + 1) (saltAccum s dtime i - prev (2*i + 1))) (2*i + 1) (-s.saltSource i)) r

/-- tdympfao_snes_salinity.c 220-310, `TDyMPFAOSNESFunction_Salinity`, after the state has been
updated. -/
def salFunction (s : Sal) (dtime : ℝ) (prev : Nat → ℝ) : Nat → ℝ :=
  salCellLoop s dtime prev (vertexLoop2 s.base (salFluxm s) (salFluxt s) (fun _ => 0))

/-- tdympfao_snes_salinity.c 51-87, `TDyMPFAOSNESPreSolve_Salinity`, after the state has been
updated at the previous solution. -/
def salPreSolve (s : Sal) (dtime : ℝ) (old : Nat → ℝ) : Nat → ℝ :=
  forN s.base.numCells (fun i a =>
    if !s.base.isLocal i then a
    else wr (wr a (2*i) (snesAccum s.base dtime i)) (2*i + 1) (saltAccum s dtime i)) old

/-! ## Water and heat -/

/-- What is stored about a cell in the TH mode besides `Side`. -/
structure Heat where
  /-- temperature `U[2*i+1]` -/
  T : ℝ
  /-- enthalpy and its derivatives -/
  h : ℝ
  dhdP : ℝ
  dhdT : ℝ
  /-- internal energy; `du_dP` and `du_dT` are allocated (tdympfao.c 688-689) and never written -/
  u : ℝ
  dudP : ℝ
  dudT : ℝ
  dSdT : ℝ
  dvisdT : ℝ
  drhodT : ℝ
  /-- `rho_soil*c_soil` -/
  rock : ℝ
  /-- `energy_source_sink` -/
  source : ℝ
  /-- gravity times height, tdympfao_utils.c 11-22 -/
  gz : ℝ

/-- TH mode. -/
structure Th where
  base : Ctx
  /-- `PETSC_MACHINE_EPSILON` -/
  eps : ℝ
  /-- the conduction transmissibilities `Temp_Trans[vertex][row][col]` and the entries they add to
  `Temp_Trans_mat` -/
  tempT : Nat → Nat → Nat → ℝ
  tempM : Nat → Nat → Nat → ℝ
  heat : Nat → Heat
  /-- temperature and enthalpy of the boundary faces -/
  tBnd : Nat → ℝ
  hBnd : Nat → ℝ
  /-- `vertices->num_boundary_faces > 0 && vertices->num_internal_cells < 2` -/
  corner : Nat → Bool

/-- `if (fabs(x) < PETSC_MACHINE_EPSILON) x = 0.0`, tdympfao_th_ts.c 68-71, 370-371, 541-543. -/
def chop (eps x : ℝ) : ℝ := if |x| < eps then 0.0 else x

/-- The context whose transmissibility matrix is `Temp_Trans_mat`. -/
def heatCtx (t : Th) : Ctx :=
  { t.base with vert := fun v => { t.base.vert v with M := t.tempM v, T := t.tempT v } }

/-- `Temp_P_vec`, tdympfao.c 2669-2675 and tdympfao_utils.c 690-757. -/
def tempVec (t : Th) (j : Nat) : ℝ :=
  if j < t.base.numCells then (t.heat j).T else t.tBnd (j - t.base.numCells)

/-- `MatMult(Temp_Trans_mat, Temp_P_vec, Temp_TtimesP_vec)`, tdympfao_th_ts.c 189. -/
def ttimesTemp (t : Th) (row : Nat) : ℝ :=
  ∑ j ∈ Finset.range (t.base.numCells + t.base.numBnd), transMat (heatCtx t) row j*tempVec t j

/-- tdympfao_th_ts.c 68-69. -/
def thTP (t : Th) (v i : Nat) : ℝ := chop t.eps (ttimesP t.base (slot (t.base.vert v) i))

/-- tdympfao_th_ts.c 70-71. -/
def thTempTP (t : Th) (v i : Nat) : ℝ := chop t.eps (ttimesTemp t (slot (t.base.vert v) i))

/-- Enthalpy of one side of a face. -/
def hSide (t : Th) (id : ℤ) : ℝ :=
  if 0 ≤ id then (t.heat id.toNat).h else t.hBnd (-id - 1).toNat

/-- tdympfao_th_ts.c 78-105: enthalpy of the upwind side. -/
def uhTP (t : Th) (f : MFace) (TP : ℝ) : ℝ := if TP < 0.0 then hSide t f.up else hSide t f.dn

/-- tdympfao_th_ts.c 107-121: water flux. -/
def thFluxm (t : Th) (v i : Nat) : ℝ :=
  let f := t.base.face ((t.base.vert v).face i)
  denAvg t.base f*(ukvrTP t.base f (thTP t v i)*(-thTP t v i))

/-- tdympfao_th_ts.c 107-123: energy flux. -/
def thFluxe (t : Th) (v i : Nat) : ℝ :=
  let f := t.base.face ((t.base.vert v).face i)
  denAvg t.base f*(ukvrTP t.base f (thTP t v i)*(-thTP t v i))*uhTP t f (thTP t v i) +
    -thTempTP t v i

/-- tdympfao_th_ts.c 236-241. -/
def thDmassdP (t : Th) (i : Nat) : ℝ :=
  let s := t.base.cells i
  s.rho*0.0*s.S + s.drho*t.base.por i*s.S + s.rho*t.base.por i*s.dSdP

/-- tdympfao_th_ts.c 236-241. -/
def thDmassdT (t : Th) (i : Nat) : ℝ :=
  let s := t.base.cells i
  s.rho*0.0*s.S + (t.heat i).drhodT*t.base.por i*s.S + s.rho*t.base.por i*(t.heat i).dSdT

/-- tdympfao_th_ts.c 258-273. -/
def thDenergydP (t : Th) (i : Nat) : ℝ :=
  let s := t.base.cells i
  let h := t.heat i
  s.drho*t.base.por i*s.S*h.u + s.rho*0.0*s.S*h.u + s.rho*t.base.por i*s.dSdP*h.u +
    s.rho*t.base.por i*s.S*h.dudP + h.rock*(-0.0)*h.T

/-- tdympfao_th_ts.c 258-273. -/
def thDenergydT (t : Th) (i : Nat) : ℝ :=
  let s := t.base.cells i
  let h := t.heat i
  h.drhodT*t.base.por i*s.S*h.u + s.rho*0.0*s.S*h.u + s.rho*t.base.por i*h.dSdT*h.u +
    s.rho*t.base.por i*s.S*h.dudT + h.rock*(-0.0)*h.T + h.rock*(1.0 - t.base.por i)

/-- tdympfao_th_ts.c 275-278: accumulation and sources of one cell. -/
def thCell (t : Th) (dpdt dTdt : Nat → ℝ) (i : Nat) (r : Nat → ℝ) : Nat → ℝ :=
  let r := addAt r (2*i)
    (thDmassdP t i*dpdt i*t.base.vol i + thDmassdT t i*dTdt i*t.base.vol i)
  let r := addAt r (2*i + 1)
    (thDenergydP t i*dpdt i*t.base.vol i + thDenergydT t i*dTdt i*t.base.vol i)
  let r := addAt r (2*i) (-(t.base.source i*t.base.vol i))
  addAt r (2*i + 1) (-((t.heat i).source*t.base.vol i))

/-- tdympfao_th_ts.c 231-279: the loop over the cells; `break` at the first cell that is not local.
The second component says that the loop has been left. -/
def thCellLoop (t : Th) (dpdt dTdt : Nat → ℝ) (r : Nat → ℝ) : Nat → ℝ :=
  (forN t.base.numCells (fun i (s : (Nat → ℝ) × Bool) =>
    if s.2 = true then s
    else if !t.base.isLocal i then (s.1, true)
    else (thCell t dpdt dTdt i s.1, false)) (r, false)).1

/-- tdympfao_th_ts.c 148-297, `TDyMPFAOIFunction_TH`, after the state has been updated. -/
def thFunction (t : Th) (dpdt dTdt : Nat → ℝ) : Nat → ℝ :=
  thCellLoop t dpdt dTdt (vertexLoop2 t.base (thFluxm t) (thFluxe t) (fun _ => 0))

/-! ### Jacobian of the TH mode -/

/-- A 2 by 2 block: derivatives of the water and of the energy flux with respect to the pressure and
the temperature.  `MatSetValuesBlockedLocal` reads `Jac` by columns, as the matrix is not
row-oriented (tdydiscretization.c 168), so `Jac[0] Jac[1] Jac[2] Jac[3]` are `mP eP mT eT`. -/
structure Block where
  mP : ℝ
  mT : ℝ
  eP : ℝ
  eT : ℝ

/-- Apply a function to the four entries. -/
def Block.map (g : ℝ → ℝ) (b : Block) : Block := ⟨g b.mP, g b.mT, g b.eP, g b.eT⟩

/-- tdympfao_th_ts.c 414, 437: derivative of the mobility of a cell with respect to temperature. -/
def dukvrT (s : Side) (h : Heat) : ℝ := s.dKrdS*h.dSdT/s.vis - s.Kr/(s.vis*s.vis)*h.dvisdT

/-- The advective derivatives for the cell on the given side; `upwind` says whether the flow comes
from this side, `g` whether it is a cell.  `dK`, `dKT`, `dh`, `dhT` are the derivatives of mobility
and enthalpy of the upwind side, zero if it is the other side or a boundary.
tdympfao_th_ts.c 488-532. -/
def thAdvect (den uk TP T uh dden ddenT dK dKT dh dhT gz : ℝ) : Block :=
  { mP := dden*uk*TP + den*dK*TP + den*uk*T*(1.0 + dden*gz)
    mT := ddenT*uk*TP + den*dKT*TP + den*uk*T*(1.0 + ddenT*gz)
    eP := dden*uk*TP*uh + den*dK*TP*uh + den*uk*T*(1.0 + dden*gz)*uh + den*uk*TP*dh
    eT := ddenT*uk*TP*uh + den*dKT*TP*uh + den*uk*T*(1.0 + ddenT*gz)*uh + den*uk*TP*dhT }

/-- tdympfao_th_ts.c 533-537: a cell that is on neither side. -/
def thOther (den uk T uh gz : ℝ) : Block :=
  { mP := den*uk*T*(1.0 + 0*gz)
    mT := den*uk*T*(0.0 + 0*gz)
    eP := den*uk*T*(1.0 + 0*gz)*uh
    eT := den*uk*T*(0.0 + 0*gz)*uh }

/-- tdympfao_th_ts.c 452-453: a boundary side is replaced by the other side. -/
def thUp (f : MFace) : ℤ := if f.up < 0 then f.dn else f.up

/-- tdympfao_th_ts.c 452-453; the second line tests after the first one has been executed. -/
def thDn (f : MFace) : ℤ := if f.dn < 0 then thUp f else f.dn

/-- tdympfao_th_ts.c 399-540: the block of cell `k` with transmissibilities `T` and `tT`, before it
is cleaned up. -/
def thBlock (t : Th) (f : MFace) (TP T tT : ℝ) (k : Nat) : Block :=
  let c := t.base
  let den := denAvg c f
  let uk := ukvrTP c f TP
  let uh := uhTP t f TP
  let gz := (t.heat k).gz
  let b :=
    if thUp f > -1 ∧ (k : ℤ) = thUp f then
      let on : Prop := TP < 0.0 ∧ 0 ≤ f.up
      let j := (thUp f).toNat
      let ju := f.up.toNat
      thAdvect den uk TP T uh (0.5*(c.cells j).drho) (0.5*(t.heat j).drhodT)
        (open Classical in if on then dukvrCell (c.cells ju) else 0.0)
        (open Classical in if on then dukvrT (c.cells ju) (t.heat ju) else 0.0)
        (open Classical in if on then (t.heat ju).dhdP else 0.0)
        (open Classical in if on then (t.heat ju).dhdT else 0.0) gz
    else if thDn f > -1 ∧ (k : ℤ) = thDn f then
      let on : Prop := ¬ TP < 0.0 ∧ 0 ≤ f.dn
      let j := (thDn f).toNat
      let jd := f.dn.toNat
      thAdvect den uk TP T uh (0.5*(c.cells j).drho) (0.5*(t.heat j).drhodT)
        (open Classical in if on then dukvrCell (c.cells jd) else 0.0)
        (open Classical in if on then dukvrT (c.cells jd) (t.heat jd) else 0.0)
        (open Classical in if on then (t.heat jd).dhdP else 0.0)
        (open Classical in if on then (t.heat jd).dhdT else 0.0) gz
    else thOther den uk T uh gz
  { b with eT := b.eT + tT }

/-- tdympfao_th_ts.c 541-549: the block added to the row of the up side. -/
def thValue (t : Th) (v i k : Nat) : Block :=
  (thBlock t (t.base.face ((t.base.vert v).face i)) (thTP t v i) ((t.base.vert v).T i k)
    (t.tempT v i k) ((t.base.vert v).cell k)).map fun x => -chop t.eps x

/-- `MatSetValuesBlockedLocal(A, 1, &row, 1, &col, Jac, ADD_VALUES)` for a non-negative row. -/
def addBlock (A : Nat → Nat → Block) (row : ℤ) (col : Nat) (b : Block) : Nat → Nat → Block :=
  fun a k => if (a : ℤ) = row ∧ k = col then
    ⟨(A a k).mP + b.mP, (A a k).mT + b.mT, (A a k).eP + b.eP, (A a k).eT + b.eT⟩ else A a k

/-- tdympfao_th_ts.c 551-559: the block of one column, for the rows of this rank. -/
def thColumn (t : Th) (v i k : Nat) (A : Nat → Nat → Block) : Nat → Nat → Block :=
  let f := t.base.face ((t.base.vert v).face i)
  let A := if t.base.isLocal (thUp f).toNat = true then
      addBlock A (thUp f) ((t.base.vert v).cell k) (thValue t v i k) else A
  if t.base.isLocal (thDn f).toNat = true then
    addBlock A (thDn f) ((t.base.vert v).cell k) ((thValue t v i k).map fun x => -x) else A

/-- tdympfao_th_ts.c 300-574, `TDyMPFAOIJacobian_Vertices_TH`: corner vertices are skipped.  The
loop is over all vertices and faces; that the entries of `TtimesP` of faces that are not local are
not initialised is not modelled (`thTP` is used). -/
def thJacobianVertices (t : Th) (A : Nat → Nat → Block) : Nat → Nat → Block :=
  forN t.base.numVertices (fun v A =>
    if t.corner v = true then A
    else forN (t.base.vert v).nRows (fun i A =>
      forN (t.base.vert v).nCells (fun k A => thColumn t v i k A) A) A) A

end

end TDy.Mpfao
