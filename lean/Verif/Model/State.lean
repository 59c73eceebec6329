import Verif.Loop
import Verif.Basic
import Verif.Model.Curves
import Verif.Model.Eos

/-!
# Model of the state updates

src/fv/mpfao/tdympfao.c 630-763 (the other methods alike), 2527-2786; src/fv/mpfao/tdympfao_utils.c
24-99, 690-883; src/fe/tdywy.c 453-519, 973-1016; src/fv/fvtpf/tdyfvtpf.c 361-448; and the calls made
before a step, tdympfao_snes.c 45-47, tdympfao_snes_salinity.c 63-64, tdyfvtpf_snes.c 57-59, 97-99.

Model/Fvtpf.lean has the two-point flux method with the laws of a cell as parameters; here they are
those of the characteristic curves and equations of state.

The arrays `S`, `dS_dP`, `d2S_dP2` are one array of `Sat`, the arrays `Kr`, `dKr_dS` one of `Kr`, the
water properties of the cells one array of `Water`.  These arrays have an entry for every cell of the
process (`TDyAlloc` gives more).  The local arrays `Pc` and `Se` of the updates have `n` entries, the
number of cells passed by the caller, and the vector of unknowns has `len`; reading past their ends is
undefined behaviour.  Arithmetic is that of ℝ.
-/

namespace TDy.State

open TDy.Curves TDy.Eos

noncomputable section

/-! ## Setup -/

/-- The settings of the characteristic curves (src/tdycore.c:280-287). -/
structure Options where
  m : ℝ
  alpha : ℝ
  x0 : ℝ
  x1 : ℝ
  x2 : ℝ
  dx : ℝ

/-- The characteristic curves `cc->saturation`, `cc->rel_perm`. -/
structure CC where
  sat : Model2 := {}
  kr : Model2 := {}

/-- `parameters` of src/fv/mpfao/tdympfao.c:703-706. -/
def vgParams (o : Options) (nc : Nat) : Nat → ℝ :=
  forN nc (fun c p => wr (wr p (2*c) o.m) (2*c + 1) o.alpha) (fun _ => 0)

/-- `parameters` of src/fv/mpfao/tdympfao.c:713-735 for the coefficients `k` (the same in every cell).
-/
def mualemParams (o : Options) (k : Fin 4 → ℝ) (nc : Nat) : Nat → ℝ :=
  forN nc (fun c p =>
    let p := wr (wr (wr (wr (wr p (9*c) o.m) (9*c + 1) o.x0) (9*c + 2) o.x1) (9*c + 3) o.x2)
      (9*c + 4) o.dx
    wr (wr (wr (wr p (9*c + 5) (k 0)) (9*c + 6) (k 1)) (9*c + 7) (k 2)) (9*c + 8) (k 3)) (fun _ => 0)

/-- InitMaterials (src/fv/mpfao/tdympfao.c:694-739), (src/fv/fvtpf/tdyfvtpf.c:206-252), TDySetup_WY
(src/fe/tdywy.c:464-512): van Genuchten and Mualem curves on all cells, in order (`cStart = 0`).  The
error of a singular polynomial is returned; there is none if there is no cell. -/
def initCurves (o : Options) (nc : Nat) (cc : CC) : Res CC :=
  let sat := setType cc.sat .second nc id (vgParams o nc)
  if nc = 0 then .ok ⟨sat, setType cc.kr .second nc id fun _ => 0⟩
  else
    match smoothingCoeffs o.m o.x0 o.x1 o.x2 o.dx with
    | none => .err ⟨sat, cc.kr⟩
    | some k => .ok ⟨sat, setType cc.kr .second nc id (mualemParams o k nc)⟩

/-- The updates of src/fe/tdywy.c:973, src/fv/mpfao/tdympfao.c:2527, 2596, 2680 and
src/fv/fvtpf/tdyfvtpf.c:391. -/
inductive Mode where
  | wy | richards | th | salinity | fvtpf
  deriving DecidableEq

/-- Unknowns per cell. -/
def Mode.dof : Mode → Nat
  | .wy => 1
  | .richards => 1
  | .th => 2
  | .salinity => 2
  | .fvtpf => 1

/-- The residual saturations after setup: `MaterialPropComputeResidualSaturation` evaluates the
material's function in every cell (src/fv/mpfao/tdympfao.c:745, src/fv/fvtpf/tdyfvtpf.c:258); in
TDySetup_WY the array is allocated (src/fe/tdywy.c:462), hence zero, and never filled. -/
def initSr (mode : Mode) (user : Nat → ℝ) : Nat → ℝ :=
  match mode with
  | .wy => fun _ => 0
  | _ => user

/-! ## Cells -/

/-- include/tdycore.h:108-111, `TDyWaterViscosityType`; `other` is any other integer value. -/
inductive ViscosityType where
  | constant | batzleWang | other

/-- src/materials/tdyeos.c:115-136, `EOSComputeWaterViscosity`; `none` is a reported error. -/
def waterViscosity (ty : ViscosityType) (p T S : ℝ) : Option Out :=
  match ty with
  | .constant => some (viscosityConstant p)
  | .batzleWang => some (viscosityBatzleWang T S)
  | .other => none

/-- The water in a cell. -/
structure Water where
  rho : ℝ
  drho : ℝ
  d2rho : ℝ
  vis : ℝ
  dvis : ℝ
  d2vis : ℝ
  mnacl : ℝ
  h : ℝ
  dhdP : ℝ
  dhdT : ℝ
  u : ℝ

/-- What the updates read. -/
structure Ctx where
  Pref : ℝ
  Tref : ℝ
  /-- `wy->dim`; 3 in MPFA-O -/
  dim : Nat
  Sr : Nat → ℝ
  K0 : Nat → ℝ
  kappa0 : Nat → ℝ
  muSaline : Nat → ℝ
  density : DensityType
  viscosity : ViscosityType
  /-- `eos->enthalpy_type == WATER_ENTHALPY_CONSTANT` -/
  enthalpyConstant : Bool

/-- What the updates write. -/
structure St where
  sat : Nat → Sat
  kr : Nat → Kr
  K : Nat → ℝ
  kappa : Nat → ℝ
  water : Nat → Water
  pVec : Nat → ℝ
  tVec : Nat → ℝ
  psiVec : Nat → ℝ

/-- The points registered with the saturation models lie below `n`: `SaturationCompute` reads `Pc[j]`
at every registered point `j` (src/materials/tdycharacteristiccurves.c:125-157). -/
def pointsBelow (s : Model2) (n : Nat) : Prop :=
  (∀ i, i < s.t0.num → s.t0.points i < n) ∧ (∀ i, i < s.t1.num → s.t1.points i < n)

/-- At most `n` points are registered with each relative permeability model:
`RelativePermeabilityCompute` reads `Se[i]` at every offset `i`
(src/materials/tdycharacteristiccurves.c:325-357). -/
def countsUpTo (s : Model2) (n : Nat) : Prop := s.t0.num ≤ n ∧ s.t1.num ≤ n

/-- src/fv/mpfao/tdympfao.c:2549-2556: effective saturation. -/
def effective (Sr : Nat → ℝ) (sat : Nat → Sat) : Nat → ℝ := fun c =>
  ((sat c).S - Sr c)/(1.0 - Sr c)

open Classical in
/-- src/fv/mpfao/tdympfao.c:2541-2558, 2611-2634, 2695-2718, src/fv/fvtpf/tdyfvtpf.c:405-424,
src/fe/tdywy.c:984-1003: the characteristic curves at the pressures `P`. -/
def curvesUpdate (cc : CC) (x : Ctx) (n : Nat) (P : Nat → ℝ) (st : St) : Res St :=
  if ¬ pointsBelow cc.sat n then .ub
  else if ¬ countsUpTo cc.kr n then .ub
  else
    let sat := saturationCompute cc.sat x.Sr (fun c => x.Pref - P c) st.sat
    .ok { st with sat := sat, kr := relPermCompute cc.kr (effective x.Sr sat) st.kr }

/-- src/fv/mpfao/tdympfao.c:2562-2567, src/fe/tdywy.c:1006-1013: chain rule and permeability. -/
def chainRule (x : Ctx) (c : Nat) (st : St) : St :=
  let dSe_dS := 1.0/(1.0 - x.Sr c)
  let kr := wr st.kr c ⟨(st.kr c).k, (st.kr c).dk*dSe_dS⟩
  { st with
    kr := kr
    K := forN (x.dim*x.dim) (fun j K =>
      wr K (c*(x.dim*x.dim) + j) (x.K0 (c*(x.dim*x.dim) + j)*(kr c).k)) st.K }

/-- src/fv/mpfao/tdympfao.c:2570-2578: density and viscosity at pressure `P`, the reference
temperature and the stored salt fraction; a derivative that is not delivered keeps its old value. -/
def waterUpdate (x : Ctx) (c : Nat) (P : ℝ) (st : St) : Res St :=
  match waterDensity x.density P x.Tref (st.water c).mnacl with
  | none => .err st
  | some r =>
    let w := { st.water c with
      rho := r.v, drho := r.dv.getD (st.water c).drho, d2rho := r.d2v.getD (st.water c).d2rho }
    match waterViscosity x.viscosity P x.Tref w.mnacl with
    | none => .err { st with water := wr st.water c w }
    | some v =>
      .ok { st with water := wr st.water c { w with
        vis := v.v, dvis := v.dv.getD w.dvis, d2vis := v.d2v.getD w.d2vis } }

/-- src/fv/mpfao/tdympfao.c:2649-2655: thermal conductivity, enthalpy and internal energy.
`ComputeWaterEnthalpy_Constant` (src/materials/tdyeos.c:138-150) ignores its arguments. -/
def heatUpdate (x : Ctx) (c : Nat) (P : ℝ) (st : St) : Res St :=
  let st := { st with kappa := forN (x.dim*x.dim) (fun j k =>
    wr k (c*(x.dim*x.dim) + j) (x.kappa0 (c*(x.dim*x.dim) + j))) st.kappa }
  if !x.enthalpyConstant then .err st
  else .ok { st with water := wr st.water c { st.water c with
    h := 1.8890, dhdP := 0.0, dhdT := 0.0, u := 1.8890 - P/(st.water c).rho } }

/-- src/fv/mpfao/tdympfao.c:2731-2733: salt fraction at the concentration `psi`. -/
def saltUpdate (x : Ctx) (c : Nat) (psi : ℝ) (st : St) : St :=
  { st with water := wr st.water c { st.water c with
    mnacl := salinityFraction psi (x.muSaline c) } }

/-- The body of the loops src/fv/mpfao/tdympfao.c:2561-2579 (Richards), 2637-2656 (TH), 2721-2741
(salinity), src/fv/fvtpf/tdyfvtpf.c:427-445, src/fe/tdywy.c:1006-1013 (WY).  `P` is `Pref - Pc[c]`; the
two-point flux method passes the salt fraction 0. -/
def cellUpdate (mode : Mode) (x : Ctx) (c : Nat) (P second : ℝ) (st : St) : Res St :=
  let st := chainRule x c st
  match mode with
  | .wy => .ok st
  | .fvtpf => waterUpdate x c P { st with water := wr st.water c { st.water c with mnacl := 0.0 } }
  | .richards => waterUpdate x c P st
  | .th => (waterUpdate x c P st).bind (heatUpdate x c P)
  | .salinity => waterUpdate x c P (saltUpdate x c second st)

/-- src/fv/mpfao/tdympfao.c:2581-2592, 2658-2676, 2743-2755: the vectors of the unknowns; the array
`pressure` of src/fv/fvtpf/tdyfvtpf.c:409 (filled earlier, and not read in between). -/
def vecUpdate (mode : Mode) (n : Nat) (P second : Nat → ℝ) (st : St) : St :=
  let st := match mode with
    | .wy => st
    | _ => { st with pVec := forN n (fun c p => wr p c (P c)) st.pVec }
  match mode with
  | .th => { st with tVec := forN n (fun c p => wr p c (second c)) st.tVec }
  | .salinity => { st with psiVec := forN n (fun c p => wr p c (second c)) st.psiVec }
  | _ => st

/-- TDyUpdateState_WY (src/fe/tdywy.c:973-1016), TDyUpdateState_Richards_MPFAO,
TDyUpdateState_TH_MPFAO, TDyUpdateState_Salinity_MPFAO (src/fv/mpfao/tdympfao.c:2527-2757),
TDyUpdateState_Richards_FVTPF (src/fv/fvtpf/tdyfvtpf.c:391-448) for `n` cells; `U` has `len` entries. -/
def updateState (mode : Mode) (cc : CC) (x : Ctx) (n len : Nat) (U : Nat → ℝ) (st : St) : Res St :=
  if len < mode.dof*n then .ub
  else
    let P : Nat → ℝ := fun c => U (mode.dof*c)
    let second : Nat → ℝ := fun c => U (2*c + 1)
    let Pback : Nat → ℝ := fun c => x.Pref - (x.Pref - P c)
    (curvesUpdate cc x n P st).bind fun st =>
      (forN n (fun c (r : Res St) => r.bind (cellUpdate mode x c (Pback c) (second c))) (.ok st)).bind
        fun st => .ok (vecUpdate mode n Pback second st)

/-- The state updates before a step and after a cut step.  The solution vector `soln_prev` is global:
this process has the entries of its own `nLocal` cells.  TDyMPFAOSNESPreSolve
(src/fv/mpfao/tdympfao_snes.c:45-47), TDyFVTPFSNESPreSolve and TDyFVTPFSNESTimeCut
(src/fv/fvtpf/tdyfvtpf_snes.c:57-59, 97-99) pass `num_cells_local`, TDyMPFAOSNESPreSolve_Salinity
(src/fv/mpfao/tdympfao_snes_salinity.c:63-64) passes `num_cells`. -/
def preSolveState (mode : Mode) (cc : CC) (x : Ctx) (nLocal nCells : Nat) (U : Nat → ℝ) (st : St) :
    Res St :=
  updateState mode cc x (if mode = .salinity then nCells else nLocal) (mode.dof*nLocal) U st

/-- TDyUpdateDiagnostics_MPFAO (src/fv/mpfao/tdympfao.c:2759-2786), TDyUpdateDiagnostics_FVTPF
(src/fv/fvtpf/tdyfvtpf.c:361-388): `(v, count)` after the loop over
the cells; `sat` and `rho`, `V` are the arrays of the method.  `DIAG_LIQUID_SATURATION` is 0,
`DIAG_LIQUID_MASS` is 1. -/
def diagnostics (nCells : Nat) (isLocal : Nat → Bool) (S rho V : Nat → ℝ) (v : Nat → ℝ) :
    (Nat → ℝ) × Nat :=
  forN nCells (fun c (s : (Nat → ℝ) × Nat) =>
    if !isLocal c then s
    else (wr (wr s.1 (2*s.2) (S c)) (2*s.2 + 1) (rho c*V c), s.2 + 1)) (v, 0)

/-! ## Boundary faces (MPFA-O) -/

/-- A face: is it internal, and its two cell ids (a negative id is a boundary face). -/
structure BFace where
  internal : Bool
  up : ℤ
  dn : ℤ

/-- `cell_id` and `p_bnd_idx` (src/fv/mpfao/tdympfao_utils.c:46-52, 734-740). -/
def BFace.cell (f : BFace) : Nat := if 0 ≤ f.up then f.up.toNat else f.dn.toNat

/-- The index of the boundary face. -/
def BFace.bnd (f : BFace) : ℤ := if 0 ≤ f.up then -f.dn - 1 else -f.up - 1

/-- What is stored about boundary faces. -/
structure Bnd where
  P : Nat → ℝ
  sat : Nat → Sat
  kr : Nat → Kr
  rho : Nat → ℝ
  vis : Nat → ℝ

/-- AllocateMemoryForBoundaryValues (src/fv/mpfao/tdympfao.c:297-336): density and viscosity of every
boundary face, at the reference pressure and temperature; `mnacl0` is `m_nacl[0]`. -/
def initBoundary (x : Ctx) (nBnd : Nat) (mnacl0 : ℝ) (b : Bnd) : Res Bnd :=
  forN nBnd (fun i (r : Res Bnd) => r.bind fun b =>
    match waterDensity x.density x.Pref x.Tref mnacl0 with
    | none => .err b
    | some d =>
      let b := { b with rho := wr b.rho i d.v }
      match waterViscosity x.viscosity x.Pref x.Tref mnacl0 with
      | none => .err b
      | some v => .ok { b with vis := wr b.vis i v.v }) (.ok b)

/-- src/fv/mpfao/tdympfao_utils.c:745-750, 806-811, 867-874: the value at face `i` of cell `c`. -/
def boundaryValue (given : Option (Nat → ℝ)) (cellValue : Nat → ℝ) (i c : Nat) : ℝ :=
  match given with
  | some g => g i
  | none => cellValue c

/-- TDyMPFAO_SetBoundaryPressure, -Temperature, -SalineConcentration
(src/fv/mpfao/tdympfao_utils.c:690-758, 762-820, 823-883): the value of the boundary function at the
centroid of the face, or that of its cell; stored in the array of boundary values (`.1`) and behind the
cells in the vector multiplied by the transmissibilities (`.2`).  An index that is not one of a boundary
face of the mesh is outside the arrays. -/
def setBoundary (nFaces nCells nBnd : Nat) (face : Nat → BFace) (given : Option (Nat → ℝ))
    (cellValue : Nat → ℝ) (a : (Nat → ℝ) × (Nat → ℝ)) : Res ((Nat → ℝ) × (Nat → ℝ)) :=
  forN nFaces (fun i (r : Res ((Nat → ℝ) × (Nat → ℝ))) => r.bind fun a =>
    let f := face i
    if f.internal then .ok a
    else if f.bnd < 0 ∨ (nBnd : ℤ) ≤ f.bnd then .ub
    else
      let v := boundaryValue given cellValue i f.cell
      .ok (wr a.1 f.bnd.toNat v, wr a.2 (f.bnd.toNat + nCells) v)) (.ok a)

/-- src/fv/mpfao/tdympfao_utils.c:36-55: the boundary faces, in order. -/
def boundaryFaces (nFaces : Nat) (face : Nat → BFace) : List BFace :=
  ((List.range nFaces).map face).filter fun f => !f.internal

/-- The face at position `i` of the list (it is only read below the length). -/
def nth (l : List BFace) (i : Nat) : BFace := l.getD i ⟨true, 0, 0⟩

/-- TDyMPFAOUpdateBoundaryState (src/fv/mpfao/tdympfao_utils.c:24-99).  The local arrays are filled
with arbitrary values `junkS`, `junkK` before the curves are evaluated.  `none` is undefined behaviour. -/
def updateBoundaryState (missOob : Nat → Bool) (cc : CC) (x : Ctx) (nFaces nBnd : Nat)
    (face : Nat → BFace) (junkS : Nat → Sat) (junkK : Nat → Kr) (b : Bnd) : Option (CC × Bnd) :=
  let l := boundaryFaces nFaces face
  let n := l.length
  if nBnd < n then none
  else if ∃ f ∈ l, f.bnd < 0 ∨ (nBnd : ℤ) ≤ f.bnd then none
  else
    let Sr : Nat → ℝ := fun i => x.Sr (nth l i).cell
    let Pc : Nat → ℝ := fun i => x.Pref - b.P (nth l i).bnd.toNat
    (saturationOnPoints missOob cc.sat n (fun i => (nth l i).cell) Sr Pc junkS).bind fun s =>
      let Se : Nat → ℝ := fun i => ((s.2 i).S - Sr i)/(1.0 - Sr i)
      let dSe_dS : Nat → ℝ := fun i => 1.0/(1.0 - Sr i)
      (relPermOnPoints missOob cc.kr n (fun i => (nth l i).cell) Se junkK).map fun k =>
        (⟨s.1, k.1⟩, forN n (fun i (b : Bnd) =>
          { b with
            sat := wr b.sat (nth l i).bnd.toNat (s.2 i)
            kr := wr b.kr (nth l i).bnd.toNat ⟨(k.2 i).k, (k.2 i).dk*dSe_dS i⟩ }) b)

end

end TDy.State
