import Verif.Loop
import Verif.Model.Geometry
import Verif.Model.Curves
import Verif.Model.Eos

/-!
# Model of the two-point flux method (src/fv/fvtpf/tdyfvtpf.c, src/fv/fvtpf/tdyfvtpf_snes.c)

The struct-of-arrays `TDyFVTPF` is modelled as an array of structs: `cells c` collects the entries
`pressure[c]`, `S[c]`, `Kr[c]`, ... and `bnds b` the entries `P_bnd[b]`, `S_bnd[b]`, ....  The
cell arrays have `numCells` entries, the boundary arrays `numBnd`.  An access to a boundary array
outside `0 .. numBnd-1` is undefined behaviour (`none`).  A variable that is read although nothing
was stored in it holds an arbitrary value, which the model takes as an argument.
-/

namespace TDy.Fvtpf

open TDy.Geo

noncomputable section

/-- The state of one cell, or of one boundary face (which has no derivatives). -/
structure Side where
  P : ℝ
  S : ℝ
  Kr : ℝ
  vis : ℝ
  rho : ℝ
  dSdP : ℝ := 0
  dKrdS : ℝ := 0
  dvis : ℝ := 0
  drho : ℝ := 0

/-- What a face stores: distances and unit vector from up to down, and projected area. -/
structure Geom where
  dUp : ℝ
  dDn : ℝ
  u : P3
  area : ℝ

/-- include/tdycore.h:49-53, `TDyBoundaryConditionType`. -/
inductive Bc where
  | dirichlet | neumann | seepage
  deriving DecidableEq

/-- The diagonal of a permeability tensor (`K0[c*9+0]`, `+4`, `+8`). -/
structure Perm where
  xx : ℝ
  yy : ℝ
  zz : ℝ

/-- A face: its two cell ids (boundaries are negative), flags, boundary type and geometry. -/
structure Face where
  up : ℤ
  dn : ℤ
  isLocal : Bool
  isInternal : Bool
  bc : Bc
  geom : Geom

/-- The mesh and the `TDyFVTPF` context. -/
structure Ctx where
  numCells : Nat
  numFaces : Nat
  numBnd : Nat
  face : Nat → Face
  isLocal : Nat → Bool
  vol : Nat → ℝ
  por : Nat → ℝ
  K0 : Nat → Perm
  source : Nat → ℝ
  Sr : Nat → ℝ
  cells : Nat → Side
  bnds : Nat → Side
  gravity : P3
  Pref : ℝ

/-! ## Face geometry -/

/-- src/fv/fvtpf/tdyfvtpf.c:713-737, `FVTPFCalculateDistances`: `(dist_gravity, upweight)`. -/
def calculateDistances (gravity : P3) (g : Geom) : ℝ × ℝ :=
  let ratio := g.dUp/(g.dUp + g.dDn)
  let up := (g.dUp + g.dDn)*ratio
  let dn := (g.dUp + g.dDn) - up
  (dot gravity g.u*(g.dUp + g.dDn), dn/(up + dn))

/-- src/fv/fvtpf/tdyfvtpf.c:698-705: the permeability seen in direction `u`. -/
def directional (u : P3) (K : Perm) : ℝ :=
  1.0/(0.0 + u.x ^ (2:ℕ)/K.xx + u.y ^ (2:ℕ)/K.yy + u.z ^ (2:ℕ)/K.zz)

/-- src/fv/fvtpf/tdyfvtpf.c:707-708: the two-point coefficient. -/
def faceCoefficient (dUp dDn Kup Kdn : ℝ) : ℝ := (Kup*Kdn)/(dUp*Kdn + dDn*Kup)

/-- src/fv/fvtpf/tdyfvtpf.c:637-669, `FVTPFExtractUpAndDownPermeabilityTensors`, diagonals only:
the boundary side takes the tensor of the cell.  (Both ids negative is an error, not modelled:
every face has a cell.) -/
def upDownPerm (c : Ctx) (f : Face) : Perm × Perm :=
  (if 0 ≤ f.up then c.K0 f.up.toNat else c.K0 f.dn.toNat,
   if 0 ≤ f.dn then c.K0 f.dn.toNat else c.K0 f.up.toNat)

/-- src/fv/fvtpf/tdyfvtpf.c:682-711, `FVTPFComputeFacePermeabililtyValueTPF` (`Dq`). -/
def faceDq (c : Ctx) (f : Face) : ℝ :=
  let K := upDownPerm c f
  faceCoefficient f.geom.dUp f.geom.dDn (directional f.geom.u K.1) (directional f.geom.u K.2)

/-! ## Fluxes -/

/-- src/fv/fvtpf/tdyfvtpf_snes.c:139-145 (and the same lines of the other routines): the weight of
the up density, overridden where one side is dry. -/
def upweight (w : ℝ) (up dn : Side) : ℝ :=
  if up.S < 1e-8 then 0.0 else if dn.S < 1e-8 then 1.0 else w

/-- src/fv/fvtpf/tdyfvtpf_snes.c:149: average density. -/
def denAve (w : ℝ) (up dn : Side) : ℝ :=
  upweight w up dn*up.rho + (1.0 - upweight w up dn)*dn.rho

/-- src/fv/fvtpf/tdyfvtpf_snes.c:151-152: potential difference. -/
def dphi (distGravity w : ℝ) (up dn : Side) : ℝ :=
  up.P - dn.P - denAve w up dn*distGravity

/-- src/fv/fvtpf/tdyfvtpf_snes.c:136-138: is either side mobile? -/
def mobile (up dn : Side) : Prop := up.Kr > 1e-8 ∨ dn.Kr > 1e-8

open Classical in
/-- src/fv/fvtpf/tdyfvtpf_snes.c:118-170, `RichardsResidual`, after the geometry.  `old` is what
`*Res` holds before the call: when neither side is mobile, nothing is stored. -/
def residual (Dq distGravity w area : ℝ) (up dn : Side) (old : ℝ) : ℝ :=
  if mobile up dn then
    let d := dphi distGravity w up dn
    let ukvr := if d ≥ 0.0 then up.Kr/up.vis else dn.Kr/dn.vis
    Dq*ukvr*d*area*denAve w up dn
  else old

open Classical in
/-- src/fv/fvtpf/tdyfvtpf_snes.c:235-290, `RichardsSeepageBCResidual`, after the geometry. -/
def seepageResidual (Pref Dq distGravity w area : ℝ) (up dn : Side) (old : ℝ) : ℝ :=
  if mobile up dn then
    let d0 := dphi distGravity w up dn
    let d := if d0 > 0.0 ∧ up.P - Pref < 1e-8 then 0.0 else d0
    let ukvr := if d ≥ 0.0 then up.Kr/up.vis else dn.Kr/dn.vis
    Dq*ukvr*d*area*denAve w up dn
  else old

/-- src/fv/fvtpf/tdyfvtpf_snes.c:337-356, 403-424, 507-516: derivative of the mobility. -/
def dukvr (s : Side) : ℝ := s.dKrdS*s.dSdP/s.vis - s.Kr*s.dvis/s.vis ^ (2.0:ℝ)

open Classical in
/-- src/fv/fvtpf/tdyfvtpf_snes.c:293-374, `RichardsJacobian`, after the geometry. -/
def jacobian (Dq distGravity w area : ℝ) (up dn : Side) (old : ℝ × ℝ) : ℝ × ℝ :=
  if mobile up dn then
    let uw := upweight w up dn
    let den := denAve w up dn
    let ddenUp := uw*up.drho
    let ddenDn := (1.0 - uw)*dn.drho
    let dgUp := uw*distGravity
    let dgDn := (1.0 - uw)*distGravity
    let d := dphi distGravity w up dn
    let dphiUp := 1.0 - dgUp*up.drho
    let dphiDn := -1.0 - dgDn*dn.drho
    let ukvr := if d ≥ 0.0 then up.Kr/up.vis else dn.Kr/dn.vis
    let dukUp := if d ≥ 0.0 then dukvr up else 0.0
    let dukDn := if d ≥ 0.0 then 0.0 else dukvr dn
    let q := Dq*ukvr*d*area
    let dqUp := Dq*(dukUp*d + ukvr*dphiUp)*area
    let dqDn := Dq*(dukDn*d + ukvr*dphiDn)*area
    (dqUp*den + q*ddenUp, dqDn*den + q*ddenDn)
  else old

open Classical in
/-- src/fv/fvtpf/tdyfvtpf_snes.c:377-446, `RichardsBCJacobian`, after the geometry.  With inflow
(`dphi >= 0`) the mobility stays 0. -/
def bcJacobian (Dq distGravity w area : ℝ) (up dn : Side) (old : ℝ) : ℝ :=
  if mobile up dn then
    let uw := upweight w up dn
    let den := denAve w up dn
    let ddenDn := (1.0 - uw)*dn.drho
    let dgDn := uw*distGravity
    let d := dphi distGravity w up dn
    let dphiDn := -1.0 - dgDn*ddenDn
    let ukvr := if d ≥ 0.0 then 0.0 else dn.Kr/dn.vis
    let dukDn := if d ≥ 0.0 then 0.0 else dukvr dn
    let q := Dq*ukvr*d*area
    let dqDn := Dq*(dukDn*d + ukvr*dphiDn)*area
    dqDn*den + q*ddenDn
  else old

open Classical in
/-- src/fv/fvtpf/tdyfvtpf_snes.c:457-530, `RichardsSeepageBCJacobian`, after the geometry. -/
def seepageJacobian (Pref Dq distGravity w area : ℝ) (up dn : Side) (old : ℝ) : ℝ :=
  if mobile up dn then
    let uw := upweight w up dn
    let den := denAve w up dn
    let ddenDn := (1.0 - uw)*dn.drho
    let dgDn := uw*distGravity
    let d0 := dphi distGravity w up dn
    let shut := d0 ≥ 0.0 ∧ up.P - Pref < 1e-8
    let d := if shut then 0.0 else d0
    let dphiDn := if shut then 0.0 else -1.0 - dgDn*ddenDn
    let ukvr := if d0 ≥ 0.0 then up.Kr/up.vis else dn.Kr/dn.vis
    let dukDn := if d0 ≥ 0.0 then 0.0 else dukvr dn
    let q := Dq*ukvr*d*area
    let dqDn := Dq*(dukDn*d + ukvr*dphiDn)*area
    dqDn*den + q*ddenDn
  else old

/-! ## Addressing boundary faces -/

/-- src/fv/share/tdymeshplex.c:395-441, `IdentifyLocalFaces`: boundary faces are numbered in the
order of the faces; the id of the missing cell becomes minus the running count.  The state is
(number of boundary faces so far, the ids stored). -/
def numberBoundaryFaces (numFaces : Nat) (isInternal : Nat → Bool) : Nat × (Nat → ℤ) :=
  forN numFaces (fun f s =>
    if isInternal f then s
    else (s.1 + 1, wr s.2 f (-((s.1 + 1 : Nat) : ℤ)))) (0, fun _ => -1)

/-- `-id - 1`: src/fv/fvtpf/tdyfvtpf.c:523-527, 611-615, tdyfvtpf_snes.c:242, 384, 464. -/
def bndIndex (id : ℤ) : ℤ := -id - 1

/-- `-id + 1`: src/fv/fvtpf/tdyfvtpf_snes.c:181, `RichardsBCResidual`. -/
def bndIndexResidual (id : ℤ) : ℤ := -id + 1

/-- An entry of a boundary array; `none` outside the array. -/
def bndAt (c : Ctx) (i : ℤ) : Option Side :=
  if 0 ≤ i ∧ i < c.numBnd then some (c.bnds i.toNat) else none

/-! ## The routines with their addressing -/

/-- `FVTPFCalculateDistances` for a face of the mesh. -/
def dists (c : Ctx) (f : Face) : ℝ × ℝ := calculateDistances c.gravity f.geom

/-- `RichardsResidual` (tdyfvtpf_snes.c:118-170). -/
def richardsResidual (c : Ctx) (f : Face) (old : ℝ) : ℝ :=
  residual (faceDq c f) (dists c f).1 (dists c f).2 f.geom.area
    (c.cells f.up.toNat) (c.cells f.dn.toNat) old

/-- `RichardsBCResidual` (tdyfvtpf_snes.c:173-224); the arithmetic is that of
`RichardsResidual` with the boundary values on the up side. -/
def richardsBCResidual (c : Ctx) (f : Face) (old : ℝ) : Option ℝ :=
  (bndAt c (bndIndexResidual f.up)).map fun b =>
    residual (faceDq c f) (dists c f).1 (dists c f).2 f.geom.area b (c.cells f.dn.toNat) old

/-- `RichardsSeepageBCResidual` (tdyfvtpf_snes.c:235-290). -/
def richardsSeepageBCResidual (c : Ctx) (f : Face) (old : ℝ) : Option ℝ :=
  (bndAt c (bndIndex f.up)).map fun b =>
    seepageResidual c.Pref (faceDq c f) (dists c f).1 (dists c f).2 f.geom.area b
      (c.cells f.dn.toNat) old

/-- `RichardsJacobian` (tdyfvtpf_snes.c:293-374). -/
def richardsJacobian (c : Ctx) (f : Face) (old : ℝ × ℝ) : ℝ × ℝ :=
  jacobian (faceDq c f) (dists c f).1 (dists c f).2 f.geom.area
    (c.cells f.up.toNat) (c.cells f.dn.toNat) old

/-- `RichardsBCJacobian` (tdyfvtpf_snes.c:377-446). -/
def richardsBCJacobian (c : Ctx) (f : Face) (old : ℝ) : Option ℝ :=
  (bndAt c (bndIndex f.up)).map fun b =>
    bcJacobian (faceDq c f) (dists c f).1 (dists c f).2 f.geom.area b (c.cells f.dn.toNat) old

/-- `RichardsSeepageBCJacobian` (tdyfvtpf_snes.c:457-530). -/
def richardsSeepageBCJacobian (c : Ctx) (f : Face) (old : ℝ) : Option ℝ :=
  (bndAt c (bndIndex f.up)).map fun b =>
    seepageJacobian c.Pref (faceDq c f) (dists c f).1 (dists c f).2 f.geom.area b
      (c.cells f.dn.toNat) old

/-! ## Accumulation -/

/-- src/fv/fvtpf/tdyfvtpf_snes.c:11-21, `TDyFVTPFSNESAccumulation`. -/
def accumulation (c : Ctx) (dtime : ℝ) (i : Nat) : ℝ :=
  (c.cells i).rho*c.por i*(c.cells i).S*c.vol i/dtime

/-- src/fv/fvtpf/tdyfvtpf_snes.c:23-42, `TDyFVTPFSNESJacobianAccumulation`. -/
def jacobianAccumulation (c : Ctx) (dtime : ℝ) (i : Nat) : ℝ :=
  let s := c.cells i
  (s.drho*c.por i*s.S + s.rho*0.0*s.S + s.rho*c.por i*s.dSdP)*(c.vol i/dtime)

/-! ## Residual and Jacobian of the whole mesh -/

/-- `r[i] += v` -/
def addAt (r : Nat → ℝ) (i : Nat) (v : ℝ) : Nat → ℝ := wr r i (r i + v)

/-- src/fv/fvtpf/tdyfvtpf_snes.c:567-587: the loop over internal faces of
`TDyFVTPFSNESFunction`.  `junk f` is what the local variable `Res`, which is not initialised,
holds when the loop reaches face `f`. -/
def internalLoop (c : Ctx) (junk : Nat → ℝ) (r : Nat → ℝ) : Nat → ℝ :=
  forN c.numFaces (fun i r =>
    let f := c.face i
    if !f.isLocal then r
    else if !f.isInternal then r
    else
      let res := richardsResidual c f (junk i)
      let r := if 0 ≤ f.up ∧ c.isLocal f.up.toNat = true then addAt r f.up.toNat res else r
      if 0 ≤ f.dn ∧ c.isLocal f.dn.toNat = true then addAt r f.dn.toNat (-res) else r) r

/-- What a boundary face contributes (tdyfvtpf_snes.c:599-612); `Res` starts at 0. -/
def boundaryFlux (c : Ctx) (f : Face) : Option ℝ :=
  match f.bc with
  | .dirichlet => richardsBCResidual c f 0.0
  | .seepage => richardsSeepageBCResidual c f 0.0
  | .neumann => some 0.0

/-- src/fv/fvtpf/tdyfvtpf_snes.c:590-616: the loop over boundary faces. -/
def boundaryLoop (c : Ctx) (r : Nat → ℝ) : Option (Nat → ℝ) :=
  forN c.numFaces (fun i (r : Option (Nat → ℝ)) =>
    let f := c.face i
    if !f.isLocal then r
    else if f.isInternal then r
    else if f.bc = .neumann then r
    else r.bind fun r => (boundaryFlux c f).map fun res => addAt r f.dn.toNat (-res)) (some r)

/-- src/fv/fvtpf/tdyfvtpf_snes.c:618-628: accumulation and sources. -/
def cellLoop (c : Ctx) (dtime : ℝ) (accumPrev : Nat → ℝ) (r : Nat → ℝ) : Nat → ℝ :=
  forN c.numCells (fun i r =>
    if !c.isLocal i then r
    else addAt (addAt r i (accumulation c dtime i - accumPrev i)) i (-c.source i)) r

/-- src/fv/fvtpf/tdyfvtpf_snes.c:533-636, `TDyFVTPFSNESFunction`, after the state has been
updated; `none` is undefined behaviour. -/
def snesFunction (c : Ctx) (dtime : ℝ) (accumPrev junk : Nat → ℝ) : Option (Nat → ℝ) :=
  (boundaryLoop c (internalLoop c junk (fun _ => 0))).map (cellLoop c dtime accumPrev)

/-- `MatSetValuesLocal(B,1,&i,1,&j,&v,ADD_VALUES)` -/
def addMat (B : Nat → Nat → ℝ) (i j : Nat) (v : ℝ) : Nat → Nat → ℝ :=
  wr B i (wr (B i) j (B i j + v))

/-- src/fv/fvtpf/tdyfvtpf_snes.c:655-685: internal faces of `TDyFVTPFSNESJacobian`; `junk` is as
for `internalLoop`. -/
def jacInternalLoop (c : Ctx) (junk : Nat → ℝ × ℝ) (B : Nat → Nat → ℝ) : Nat → Nat → ℝ :=
  forN c.numFaces (fun i B =>
    let f := c.face i
    if !f.isLocal then B
    else if !f.isInternal then B
    else
      let J := richardsJacobian c f (junk i)
      let u := f.up.toNat
      let d := f.dn.toNat
      let B := if 0 ≤ f.up ∧ c.isLocal u = true then addMat (addMat B u u J.1) u d J.2 else B
      if 0 ≤ f.dn ∧ c.isLocal d = true then addMat (addMat B d d (-J.2)) d u (-J.1) else B) B

/-- What a boundary face adds to the Jacobian (tdyfvtpf_snes.c:694-709); `Jdn` is not
initialised. -/
def boundaryJac (c : Ctx) (f : Face) (junk : ℝ) : Option ℝ :=
  match f.bc with
  | .dirichlet => richardsBCJacobian c f junk
  | .seepage => richardsSeepageBCJacobian c f junk
  | .neumann => some 0

/-- src/fv/fvtpf/tdyfvtpf_snes.c:688-718: boundary faces. -/
def jacBoundaryLoop (c : Ctx) (junk : Nat → ℝ) (B : Nat → Nat → ℝ) : Option (Nat → Nat → ℝ) :=
  forN c.numFaces (fun i (B : Option (Nat → Nat → ℝ)) =>
    let f := c.face i
    if !f.isLocal then B
    else if f.isInternal then B
    else if f.bc = .neumann then B
    else B.bind fun B => (boundaryJac c f (junk i)).map fun J =>
      if 0 ≤ f.dn ∧ c.isLocal f.dn.toNat = true then addMat B f.dn.toNat f.dn.toNat (-J) else B)
    (some B)

/-- src/fv/fvtpf/tdyfvtpf_snes.c:720-729: accumulation. -/
def jacCellLoop (c : Ctx) (dtime : ℝ) (B : Nat → Nat → ℝ) : Nat → Nat → ℝ :=
  forN c.numCells (fun i B =>
    if !c.isLocal i then B else addMat B i i (jacobianAccumulation c dtime i)) B

/-- src/fv/fvtpf/tdyfvtpf_snes.c:639-740, `TDyFVTPFSNESJacobian`. -/
def snesJacobian (c : Ctx) (dtime : ℝ) (junk : Nat → ℝ × ℝ) (junkB : Nat → ℝ) :
    Option (Nat → Nat → ℝ) :=
  (jacBoundaryLoop c junkB (jacInternalLoop c junk (fun _ _ => 0))).map (jacCellLoop c dtime)

/-! ## Updating the state -/

/-- The constitutive functions of one cell: what `SaturationCompute`, `RelativePermeabilityCompute`
and the equation of state give for it. -/
structure Law where
  Sr : ℝ
  sat : ℝ → Curves.Sat
  kr : ℝ → Curves.Kr
  rho : ℝ → Eos.Out
  vis : ℝ → Eos.Out

/-- src/fv/fvtpf/tdyfvtpf.c:391-448, `TDyUpdateState_Richards_FVTPF`, for one cell at pressure
`P`; an output the equation of state does not write keeps its old value (`old`). -/
def updateCell (Pref : ℝ) (l : Law) (P : ℝ) (old : Side) : Side :=
  let Pc := Pref - P
  let s := l.sat Pc
  let Se := (s.S - l.Sr)/(1.0 - l.Sr)
  let k := l.kr Se
  let P' := Pref - Pc
  { P := P, S := s.S, dSdP := s.dS, Kr := k.k, dKrdS := k.dk*(1.0/(1.0 - l.Sr))
    rho := (l.rho P').v, drho := (l.rho P').dv.getD old.drho
    vis := (l.vis P').v, dvis := (l.vis P').dv.getD old.dvis }

/-- The loop over cells of `TDyUpdateState_Richards_FVTPF`. -/
def updateState (c : Ctx) (law : Nat → Law) (n : Nat) (U : Nat → ℝ) : Ctx :=
  { c with cells := forN n (fun i s => wr s i (updateCell c.Pref (law i) (U i) (s i))) c.cells }

/-- src/fv/fvtpf/tdyfvtpf.c:498-573 and 574-634, `TDyFVTPFUpdateBoundaryState` and
`TDyFVTPFSetBoundaryPressure` for one boundary face: the boundary takes the prescribed pressure
(or the pressure of its cell), and the curves of its cell; density and viscosity are those
computed once at the reference pressure and temperature (tdyfvtpf.c:298-306). -/
def updateBnd (Pref : ℝ) (l : Law) (pressure : Option ℝ) (cellP : ℝ) (old : Side) : Side :=
  let P := match pressure with
    | some p => p
    | none => cellP
  let s := l.sat (Pref - P)
  let k := l.kr ((s.S - l.Sr)/(1.0 - l.Sr))
  { old with P := P, S := s.S, dSdP := s.dS, Kr := k.k, dKrdS := k.dk*(1.0/(1.0 - l.Sr)) }

/-- tdyfvtpf.c:298-306, `AllocateMemoryForBoundaryValues`: the values boundary faces start with
(all arrays zeroed, then density and viscosity at the reference pressure). -/
def initBnd (Pref : ℝ) (l : Law) : Side :=
  { P := 0, S := 0, Kr := 0, rho := (l.rho Pref).v, vis := (l.vis Pref).v }

/-- The loops over boundary faces of `TDyFVTPFSetBoundaryPressure` and
`TDyFVTPFUpdateBoundaryState`. The faces are `f < numFaces` that are not internal; the boundary
index is taken from whichever cell id is negative. -/
def updateBoundary (c : Ctx) (law : Nat → Law) (pressure : Nat → Option ℝ) : Ctx :=
  let body : Nat → (Nat → Side) → (Nat → Side) := fun i b =>
    let f := c.face i
    if f.isInternal then b
    else
      let cell := if 0 ≤ f.up then f.up.toNat else f.dn.toNat
      let idx := if 0 ≤ f.up then bndIndex f.dn else bndIndex f.up
      wr b idx.toNat (updateBnd c.Pref (law cell) (pressure i) (c.cells cell).P (b idx.toNat))
  { c with bnds := forN c.numFaces body c.bnds }

/-- src/fv/fvtpf/tdyfvtpf_snes.c:44-77, 82-113: `accumulation_prev` as filled by
`TDyFVTPFSNESPreSolve` and `TDyFVTPFSNESTimeCut` from the state at the previous solution. -/
def fillAccum (c : Ctx) (dtime : ℝ) (old : Nat → ℝ) : Nat → ℝ :=
  forN c.numCells (fun i a => if !c.isLocal i then a else wr a i (accumulation c dtime i)) old

/-- src/fv/fvtpf/tdyfvtpf.c:361-388, `TDyUpdateDiagnostics_FVTPF`: (saturation, mass) of a cell. -/
def diagnostics (c : Ctx) (i : Nat) : ℝ × ℝ := ((c.cells i).S, (c.cells i).rho*c.vol i)

end

end TDy.Fvtpf
