import Verif.Spec.HeatState
import Verif.Props.MpfaoCoupled
import Verif.Props.State

/-!
# C215: water that flows carries heat

In the TH mode it does not: the only law for the enthalpy of water is a constant, so that what a stream
of water brings into a cell does not depend on its temperature.
-/

namespace TDy.Mpfao.Props

open TDy TDy.Mpfao TDy.Mpfao.Spec TDy.Mpfao.Proofs Finset

noncomputable section

/-! ## What the code stores -/

/-- The enthalpies of the boundary faces. -/
theorem boundaryEnthalpy_eq (Tref Pref : ℝ) (n : Nat) :
    ∃ a, boundaryEnthalpy true Tref Pref n = .ok a ∧ ∀ b < n, a b = 1.8890 := by
  unfold boundaryEnthalpy
  induction n with
  | zero => exact ⟨_, rfl, fun b h => absurd h (Nat.not_lt_zero b)⟩
  | succ n ih =>
    obtain ⟨a, e, h⟩ := ih
    refine ⟨wr a n 1.8890, ?_, fun b hb => ?_⟩
    · rw [forN, e]; rfl
    · by_cases hn : b = n
      · subst hn; exact wr_same _ _ _
      · rw [wr_other _ _ hn]; exact h b (by omega)

/-- After setup and any update of the state, whatever the pressures and temperatures of the cells and
of the boundary, all water has the same enthalpy, and its energy does not change with temperature. -/
theorem C215_one_enthalpy {o : State.Options} {nc : Nat} {cc : State.CC}
    (hcc : State.Spec.Reached o nc cc) (x : State.Ctx) (hd : x.density ≠ .other)
    (hv : x.viscosity ≠ .other) (he : x.enthalpyConstant = true) (t : Th)
    (hn : t.base.numCells = nc) (U : Nat → ℝ) (st : State.St) :
    ∃ st' hb, State.updateState .th cc x nc (2*nc) U st = .ok st' ∧
      boundaryEnthalpy x.enthalpyConstant x.Tref x.Pref t.base.numBnd = .ok hb ∧
      OneEnthalpy (atState t st' hb) 1.8890 ∧
      ∀ j < nc, ((atState t st' hb).base.cells j).P = U (2*j) ∧
        ((atState t st' hb).heat j).T = U (2*j + 1) := by
  obtain ⟨hb, eb, kb⟩ := boundaryEnthalpy_eq x.Tref x.Pref t.base.numBnd
  obtain ⟨sat, kr, st', -, -, eu, -, hdone, hp, ht, -⟩ := State.Proofs.update_done .th hcc x
    (State.Props.known_of hd hv fun _ => he) nc (State.Mode.dof .th*nc) le_rfl le_rfl U st
  refine ⟨st', hb, eu, by rw [he]; exact eb, ⟨?_, ?_, ?_, kb⟩, fun j hj =>
    ⟨hp (by simp) j hj, ht rfl j hj⟩⟩
  · intro j hj
    exact ((hdone j (hn ▸ hj)).heat rfl).2.1
  · intro j hj
    have hj' : j < nc := hn ▸ hj
    obtain ⟨a, b, -⟩ := (hdone j hj').heat rfl
    show (st'.water j).u = 1.8890 - st'.pVec j/(st'.water j).rho
    rw [a, b, hp (by simp) j hj']
  · intro j _
    exact ⟨rfl, rfl, rfl, rfl⟩

/-- What the balances then read about a cell: the stored slopes are the derivatives along its own pressure
of the saturation and the relative permeability it stores, density and viscosity are those of the chosen
laws at its pressure, the reference temperature and the salt fraction it had, whatever its temperature;
rock and heat source are the given ones. -/
theorem C215_cells_at_state {o : State.Options} (ho : State.Spec.Sound o) {nc : Nat} {cc : State.CC}
    (hcc : State.Spec.Reached o nc cc) (x : State.Ctx) (hd : x.density ≠ .other)
    (hv : x.viscosity ≠ .other) (he : x.enthalpyConstant = true) (hSr : ∀ c < nc, x.Sr c < 1)
    (t : Th) (hb : Nat → ℝ) (st : State.St) :
    ∃ f : (Nat → ℝ) → State.St,
      (∀ U, State.updateState .th cc x nc (2*nc) U st = .ok (f U)) ∧
      ∀ U, ∀ c < nc,
        let s := fun U => (atState t (f U) hb).base.cells c
        HasDerivAt (fun p => (s (wr U (2*c) p)).S) (s U).dSdP (U (2*c)) ∧
        HasDerivAt (fun p => (s (wr U (2*c) p)).Kr) ((s U).dKrdS*(s U).dSdP) (U (2*c)) ∧
        State.Spec.densityLaw x.density (U (2*c)) x.Tref (st.water c).mnacl = some (s U).rho ∧
        State.Spec.viscosityLaw x.viscosity x.Tref (st.water c).mnacl = some (s U).vis ∧
        (x.density ≠ .batzleWang → U (2*c) ≠ 101325 → HasDerivAt
          (fun p => (State.Spec.densityLaw x.density p x.Tref (st.water c).mnacl).getD 0) (s U).drho
          (U (2*c))) ∧
        (x.viscosity ≠ .batzleWang → (s U).dvis = 0) ∧
        ((atState t (f U) hb).heat c).rock = (t.heat c).rock ∧
        ((atState t (f U) hb).heat c).source = (t.heat c).source ∧
        ((atState t (f U) hb).heat c).gz = (t.heat c).gz := by
  obtain ⟨f, hf, h⟩ := State.Props.C123_derivatives .th ho hcc x hd hv (fun _ => he) hSr st
  refine ⟨f, hf, fun U c hc => ?_⟩
  obtain ⟨a, b, -⟩ := h U c hc
  obtain ⟨sat, kr, st', -, -, eu, -, hdone, -, -, -⟩ := State.Proofs.update_done .th hcc x
    (State.Props.known_of hd hv fun _ => he) nc (State.Mode.dof .th*nc) le_rfl le_rfl U st
  have e : st' = f U := by
    have := eu.symm.trans (hf U)
    exact Res.ok.inj this
  subst e
  have d := hdone c hc
  have w := d.water (by simp)
  have m : ((f U).water c).mnacl = (st.water c).mnacl := d.noSalt (by simp) (by simp)
  refine ⟨a, b, ?_, ?_, fun h1 h2 => ?_, fun h1 => (w.dvis h1).1, rfl, rfl, rfl⟩
  · rw [← m]; exact w.rho
  · rw [← m]; exact w.vis
  · rw [← m]; exact (w.drho h1 h2).1

/-! ## What this means for the balances -/

theorem hSide_one {t : Th} {H : ℝ} (k : OneEnthalpy t H) {id : ℤ} (hc : id < t.base.numCells)
    (hb : id < 0 → (-id - 1).toNat < t.base.numBnd) : hSide t id = H := by
  unfold hSide
  split
  · exact k.cell _ (by omega)
  · exact k.bnd _ (hb (by omega))

/-- A stream of water brings the same energy whatever the temperature it comes from. -/
theorem C215_stream (t : Th) (H : ℝ) (k : OneEnthalpy t H) (ok : FacesOk t.base)
    (bk : BoundaryOk t.base) (v i : Nat) (hs : IsSubface t.base v i) :
    thFluxe t v i = H*thFluxm t v i + -thTempTP t v i := by
  have h : uhTP t (faceOf t.base v i) (thTP t v i) = H := by
    unfold uhTP
    split
    · exact hSide_one k (ok.up v i hs) (bk.up v i hs)
    · exact hSide_one k (ok.dn v i hs) (bk.dn v i hs)
  unfold faceOf at h
  unfold thFluxe thFluxm
  dsimp only
  rw [h]
  ring

theorem cellOutflow_stream (t : Th) (H : ℝ) (k : OneEnthalpy t H) (ok : FacesOk t.base)
    (bk : BoundaryOk t.base) (j : Nat) :
    cellOutflow t.base (thFluxe t) j = H*waterOut t j + conductedOut t j := by
  unfold waterOut conductedOut cellOutflow overSubfaces
  rw [mul_sum, ← sum_add_distrib]
  refine sum_congr rfl fun v hv => ?_
  rw [mul_sum, ← sum_add_distrib]
  refine sum_congr rfl fun i hi => ?_
  dsimp only
  rw [C215_stream t H k ok bk v i ⟨mem_range.1 hv, mem_range.1 hi⟩]
  split <;> split <;> ring

/-- The energy balance of a cell is `H` times its water balance, plus the heating of the rock, the work
of the pressure on the water that is stored, the sources and the conduction: the flow of water does not
enter otherwise, nor do the temperatures of the water, neither of that which is stored nor of that which
flows. -/
theorem C215_energy_balance (t : Th) (H : ℝ) (k : OneEnthalpy t H) (ok : FacesOk t.base)
    (bk : BoundaryOk t.base) (own : OwnsAll t.base) (dpdt dTdt : Nat → ℝ) (j : Nat)
    (hj : j < t.base.numCells) :
    thFunction t dpdt dTdt (2*j + 1) = H*thFunction t dpdt dTdt (2*j) +
      ((t.heat j).rock*(1 - t.base.por j)*dTdt j
        - (t.base.cells j).P/(t.base.cells j).rho*waterRate t j (dpdt j)
        - ((t.heat j).source - H*t.base.source j))*t.base.vol j + conductedOut t j := by
  have z : (0.0 : ℝ) = 0 := by norm_num
  have o : (1.0 : ℝ) = 1 := by norm_num
  obtain ⟨a, b⟩ := C54_cell t own dpdt dTdt j hj
  obtain ⟨s1, s2, s3, s4⟩ := k.slopes j hj
  rw [a, b, cellOutflow_stream t H k ok bk]
  unfold thDmassdP thDmassdT thDenergydP thDenergydT waterRate waterOut
  dsimp only
  rw [s1, s2, s3, s4, k.energy j hj, z, o]
  generalize (t.base.cells j).P/(t.base.cells j).rho = w
  ring

/-- Where the water is steady, both balances hold exactly when the rock warms at the rate given by
conduction and sources, however much water flows through the cell and however warm it is. -/
theorem C215_steady_violated (t : Th) (H : ℝ) (k : OneEnthalpy t H) (ok : FacesOk t.base)
    (bk : BoundaryOk t.base) (own : OwnsAll t.base) (dpdt dTdt : Nat → ℝ) (j : Nat)
    (hj : j < t.base.numCells) (sw : SteadyWater t j) (hp : dpdt j = 0) :
    (thFunction t dpdt dTdt (2*j) = 0 ∧ thFunction t dpdt dTdt (2*j + 1) = 0) ↔
      (t.heat j).rock*(1 - t.base.por j)*dTdt j*t.base.vol j =
        (t.heat j).source*t.base.vol j - conductedOut t j := by
  have hm : thFunction t dpdt dTdt (2*j) = 0 := by
    have z : (0.0 : ℝ) = 0 := by norm_num
    obtain ⟨-, -, s3, s4⟩ := k.slopes j hj
    have w := sw.1
    unfold waterOut at w
    rw [(C54_cell t own dpdt dTdt j hj).1, w, sw.2, hp]
    unfold thDmassdT
    dsimp only
    rw [s3, s4, z]
    ring
  have he := C215_energy_balance t H k ok bk own dpdt dTdt j hj
  rw [hm, sw.2, hp] at he
  unfold waterRate at he
  rw [hm, he]
  constructor
  · rintro ⟨-, h⟩; linarith
  · intro h
    exact ⟨rfl, by linarith⟩

theorem conductedOut_same {t t' : Th} (e : SameHeat t t') (j : Nat) :
    conductedOut t j = conductedOut t' j := by
  have hm : transMat (heatCtx t) = transMat (heatCtx t') := by
    unfold transMat heatCtx
    dsimp only
    rw [e.numVertices, e.vert, e.tempM, e.tempT]
  have hv : tempVec t = tempVec t' := by
    funext i
    unfold tempVec
    rw [e.numCells, e.T i, e.tBnd]
  have hT : ∀ v i, thTempTP t v i = thTempTP t' v i := by
    intro v i
    unfold thTempTP ttimesTemp
    rw [hm, hv, e.numCells, e.numBnd, e.eps, e.vert]
  unfold conductedOut cellOutflow overSubfaces faceOf
  rw [e.numVertices]
  refine sum_congr rfl fun v _ => ?_
  rw [e.vert]
  refine sum_congr rfl fun i _ => ?_
  dsimp only
  rw [hT v i, e.face]

/-- Two steady flows through the same mesh with the same temperatures, fast and slow, forward and
backward, or none at all: the temperature of a cell changes at the same rate. -/
theorem C215_any_flow_violated (t t' : Th) (H : ℝ) (k : OneEnthalpy t H) (k' : OneEnthalpy t' H)
    (e : SameHeat t t') (ok : FacesOk t.base) (ok' : FacesOk t'.base) (bk : BoundaryOk t.base)
    (bk' : BoundaryOk t'.base) (own : OwnsAll t.base) (own' : OwnsAll t'.base)
    (dpdt dpdt' dTdt dTdt' : Nat → ℝ) (j : Nat) (hj : j < t.base.numCells) (sw : SteadyWater t j)
    (sw' : SteadyWater t' j) (hp : dpdt j = 0) (hp' : dpdt' j = 0)
    (hrock : 0 < (t.heat j).rock) (hpor : t.base.por j < 1) (hvol : 0 < t.base.vol j)
    (h : thFunction t dpdt dTdt (2*j) = 0 ∧ thFunction t dpdt dTdt (2*j + 1) = 0)
    (h' : thFunction t' dpdt' dTdt' (2*j) = 0 ∧ thFunction t' dpdt' dTdt' (2*j + 1) = 0) :
    dTdt j = dTdt' j := by
  have a := (C215_steady_violated t H k ok bk own dpdt dTdt j hj sw hp).1 h
  have b := (C215_steady_violated t' H k' ok' bk' own' dpdt' dTdt' j (e.numCells ▸ hj) sw' hp').1 h'
  rw [← conductedOut_same e, ← e.rock, ← e.source, ← e.por, ← e.vol, ← a] at b
  have hk : (t.heat j).rock*(1 - t.base.por j)*t.base.vol j ≠ 0 :=
    (mul_pos (mul_pos hrock (by linarith)) hvol).ne'
  have : (t.heat j).rock*(1 - t.base.por j)*t.base.vol j*dTdt j =
      (t.heat j).rock*(1 - t.base.por j)*t.base.vol j*dTdt' j := by linarith
  exact mul_left_cancel₀ hk this

/-- What remains: where temperature is the same everywhere and the rows of the conduction matrix sum up
to zero, steady water leaves it so. -/
theorem C215_uniform_partial (t : Th) (H T0 : ℝ) (k : OneEnthalpy t H) (ok : FacesOk t.base)
    (bk : BoundaryOk t.base) (own : OwnsAll t.base) (dpdt dTdt : Nat → ℝ) (j : Nat)
    (hj : j < t.base.numCells) (sw : SteadyWater t j) (hp : dpdt j = 0)
    (hrock : 0 < (t.heat j).rock) (hpor : t.base.por j < 1) (hvol : 0 < t.base.vol j)
    (hsrc : (t.heat j).source = 0) (hT : ∀ j < t.base.numCells, (t.heat j).T = T0)
    (hB : ∀ b < t.base.numBnd, t.tBnd b = T0)
    (rows : ∀ row, ∑ c ∈ range (t.base.numCells + t.base.numBnd), transMat (heatCtx t) row c = 0) :
    (thFunction t dpdt dTdt (2*j) = 0 ∧ thFunction t dpdt dTdt (2*j + 1) = 0) ↔ dTdt j = 0 := by
  have z : (0.0 : ℝ) = 0 := by norm_num
  have h0 : ∀ row, ttimesTemp t row = 0 := by
    intro row
    unfold ttimesTemp
    have : ∀ c ∈ range (t.base.numCells + t.base.numBnd),
        transMat (heatCtx t) row c*tempVec t c = transMat (heatCtx t) row c*T0 := by
      intro c hc
      have hc := mem_range.1 hc
      unfold tempVec
      split
      · rw [hT _ (by assumption)]
      · rw [hB _ (by omega)]
    rw [sum_congr rfl this, ← sum_mul, rows, zero_mul]
  have hc : conductedOut t j = 0 := by
    unfold conductedOut cellOutflow overSubfaces thTempTP chop
    simp [h0, z]
  rw [C215_steady_violated t H k ok bk own dpdt dTdt j hj sw hp, hc, hsrc]
  have hk : (t.heat j).rock*(1 - t.base.por j)*t.base.vol j ≠ 0 :=
    (mul_pos (mul_pos hrock (by linarith)) hvol).ne'
  constructor
  · intro h
    have : (t.heat j).rock*(1 - t.base.por j)*t.base.vol j*dTdt j = 0 := by linarith
    exact (mul_eq_zero.1 this).resolve_left hk
  · intro h; rw [h]; ring

/-! ## Hot water through a cold cell -/

namespace StreamWitness

def face : Nat → MFace
  | 0 => ⟨-1, 0, true⟩
  | _ => ⟨0, -2, true⟩

/-- Columns: the cell, the boundary upstream and the one downstream. -/
def M : Nat → Nat → ℝ
  | 0, 0 => 1
  | 0, 1 => -1
  | 1, 0 => -1
  | 1, 2 => 1
  | _, _ => 0

def v : Vert :=
  { isLocal := true, nRows := 2, face := id, subface := fun _ => 0, wsub := fun _ => 0, nCells := 1
    cell := id, T := M, nCols := 3, col := id, M := M }

def s (p : ℝ) : Fvtpf.Side := { P := p, S := 1, Kr := 1, vis := 1, rho := 1 }

/-- One cell at pressure 5 between boundaries at `5 + q` and `5 - q`. -/
def c (q : ℝ) : Ctx :=
  { numVertices := 1, numCells := 1, numBnd := 2, vert := fun _ => v, face := face
    isLocal := fun _ => true, vol := fun _ => 2, por := fun _ => 1/2, source := fun _ => 0
    cells := fun _ => s 5, d2S := fun _ => 0, d2rho := fun _ => 0
    bnds := fun b => match b with
      | 0 => s (5 + q)
      | _ => s (5 - q)
    bc := .dirichlet, Pref := 0, grav := fun _ => 0 }

def heat : Heat :=
  { T := 20, h := 1.8890, dhdP := 0, dhdT := 0, u := 1.8890 - 5, dudP := 0, dudT := 0, dSdT := 0
    dvisdT := 0, drhodT := 0, rock := 4, source := 0, gz := 0 }

/-- The rock conducts `kappa` times the difference of temperatures; the cell is at 20 degrees, the
water upstream at `hot`, that downstream at 20. -/
def t (q kappa hot : ℝ) : Th :=
  { base := c q, eps := 1/1000, tempT := fun _ i j => kappa*M i j, tempM := fun _ i j => kappa*M i j
    heat := fun _ => heat
    tBnd := fun b => match b with
      | 0 => hot
      | _ => 20
    hBnd := fun _ => 1.8890, corner := fun _ => false }

theorem facesOk (q kappa hot : ℝ) : FacesOk (t q kappa hot).base := by
  constructor <;> intro w i hs <;> rcases i with _ | _ | i <;> simp [t, c, v, face, faceOf]

theorem boundaryOk (q kappa hot : ℝ) : BoundaryOk (t q kappa hot).base := by
  constructor <;> intro w i hs <;> rcases i with _ | _ | i <;> simp [t, c, v, face, faceOf]

theorem ownsAll (q kappa hot : ℝ) : OwnsAll (t q kappa hot).base := by
  refine ⟨fun _ => rfl, fun f => ?_, fun _ => rfl⟩
  rcases f with _ | f <;> rfl

theorem one (q kappa hot : ℝ) : OneEnthalpy (t q kappa hot) 1.8890 := by
  refine ⟨fun _ _ => rfl, fun _ _ => ?_, fun _ _ => ⟨rfl, rfl, rfl, rfl⟩, fun _ _ => rfl⟩
  simp [t, c, s, heat]

theorem same (q q' kappa hot : ℝ) : SameHeat (t q kappa hot) (t q' kappa hot) := by
  constructor <;> first | rfl | exact fun _ => rfl

theorem tp (q kappa hot : ℝ) (hq : 1 ≤ q) :
    thTP (t q kappa hot) 0 0 = -q ∧ thTP (t q kappa hot) 0 1 = -q := by
  have e0 : ttimesP (t q kappa hot).base (slot ((t q kappa hot).base.vert 0) 0) = -q := by
    simp [ttimesP, transMat_apply, wslot, t, c, v, slot, M, pVec, s, sum_range_succ]
  have e1 : ttimesP (t q kappa hot).base (slot ((t q kappa hot).base.vert 0) 1) = -q := by
    simp [ttimesP, transMat_apply, wslot, t, c, v, slot, M, pVec, s, sum_range_succ]
    ring
  unfold thTP
  rw [e0, e1]
  have : ¬ |-q| < (1/1000 : ℝ) := by rw [abs_neg, abs_of_pos (by linarith)]; linarith
  have h : chop (t q kappa hot).eps (-q) = -q := if_neg this
  exact ⟨h, h⟩

theorem flux (q kappa hot : ℝ) (hq : 1 ≤ q) :
    thFluxm (t q kappa hot) 0 0 = q ∧ thFluxm (t q kappa hot) 0 1 = q := by
  unfold thFluxm
  rw [(tp q kappa hot hq).1, (tp q kappa hot hq).2]
  have h : -q < 0 := by linarith
  constructor <;> simp [denAvg, ukvrTP, side, t, c, v, face, s] <;> norm_num

theorem steady (q kappa hot : ℝ) (hq : 1 ≤ q) : SteadyWater (t q kappa hot) 0 := by
  refine ⟨?_, rfl⟩
  unfold waterOut cellOutflow overSubfaces
  have e : (t q kappa hot).base.numVertices = 1 := rfl
  have e' : ((t q kappa hot).base.vert 0).nRows = 2 := rfl
  rw [e, sum_range_one, e', sum_range_succ, sum_range_one]
  dsimp only
  rw [(flux q kappa hot hq).1,
    (flux q kappa hot hq).2]
  simp [faceOf, t, c, v, face]

theorem insulated (q hot : ℝ) : conductedOut (t q 0 hot) 0 = 0 := by
  have h : ∀ row, ttimesTemp (t q 0 hot) row = 0 := by
    intro row
    unfold ttimesTemp
    refine sum_eq_zero fun j _ => ?_
    rw [transMat_apply]
    simp [heatCtx, t]
  have z : (0.0 : ℝ) = 0 := by norm_num
  unfold conductedOut cellOutflow overSubfaces thTempTP chop
  simp [h, z]

/-- Conduction into the cell from the boundary upstream. -/
theorem rows (q kappa hot : ℝ) (row : Nat) : ∑ j ∈ range ((t q kappa hot).base.numCells +
    (t q kappa hot).base.numBnd), transMat (heatCtx (t q kappa hot)) row j = 0 := by
  simp only [transMat_apply]
  simp [heatCtx, t, c, v, wslot, M, sum_range_succ]
  split <;> split <;> simp

end StreamWitness

/-- C215 is violated: water of any temperature `hot` streams at any rate `q` through a cell of 20
degrees whose rock does not conduct heat, and the cell stays at 20 degrees. -/
theorem C215_hot_stream_violated (q hot : ℝ) (hq : 1 ≤ q) :
    let t := StreamWitness.t q 0 hot
    thFluxm t 0 0 = q ∧ (t.base.face 0).up = -1 ∧ t.tBnd 0 = hot ∧ (t.heat 0).T = 20 ∧
    OneEnthalpy t 1.8890 ∧
    ∀ dTdt : Nat → ℝ,
      (thFunction t (fun _ => 0) dTdt 0 = 0 ∧ thFunction t (fun _ => 0) dTdt 1 = 0) ↔ dTdt 0 = 0 := by
  intro t
  refine ⟨(StreamWitness.flux q 0 hot hq).1, rfl, rfl, rfl, StreamWitness.one q 0 hot, fun dTdt => ?_⟩
  have h := C215_steady_violated t 1.8890 (StreamWitness.one q 0 hot) (StreamWitness.facesOk q 0 hot)
    (StreamWitness.boundaryOk q 0 hot) (StreamWitness.ownsAll q 0 hot) (fun _ => 0) dTdt 0
    (by simp [t, StreamWitness.t, StreamWitness.c]) (StreamWitness.steady q 0 hot hq) rfl
  rw [StreamWitness.insulated q hot] at h
  refine h.trans ?_
  simp only [t, StreamWitness.t, StreamWitness.heat, StreamWitness.c]
  constructor
  · intro k; linarith
  · intro k; rw [k]; ring

/-- Non-vacuity of C215_any_flow_violated: streams of 1 and of 100 through the same conducting rock. -/
example : let t := StreamWitness.t 1 3 80
    let t' := StreamWitness.t 100 3 80
    OneEnthalpy t 1.8890 ∧ OneEnthalpy t' 1.8890 ∧ SameHeat t t' ∧ SteadyWater t 0 ∧
      SteadyWater t' 0 ∧ thFluxm t 0 0 = 1 ∧ thFluxm t' 0 0 = 100 :=
  ⟨StreamWitness.one _ _ _, StreamWitness.one _ _ _, StreamWitness.same _ _ _ _,
    StreamWitness.steady _ _ _ le_rfl, StreamWitness.steady _ _ _ (by norm_num),
    (StreamWitness.flux _ _ _ le_rfl).1, (StreamWitness.flux _ _ _ (by norm_num)).1⟩

/-- Non-vacuity of C215_uniform_partial: all water and rock at 20 degrees. -/
example : let t := StreamWitness.t 7 3 20
    SteadyWater t 0 ∧ (∀ j < t.base.numCells, (t.heat j).T = 20) ∧
      (∀ b < t.base.numBnd, t.tBnd b = 20) ∧
      ∀ row, ∑ c ∈ range (t.base.numCells + t.base.numBnd), transMat (heatCtx t) row c = 0 := by
  refine ⟨StreamWitness.steady _ _ _ (by norm_num), fun _ _ => rfl, fun b _ => ?_,
    StreamWitness.rows _ _ _⟩
  rcases b with _ | b <;> rfl

/-- Non-vacuity of C215_one_enthalpy: default options and two cells of sand. -/
example : ∃ cc, State.Spec.Reached State.Props.defaults 2 cc ∧ State.Props.sand.enthalpyConstant = true := by
  obtain ⟨cc, h⟩ := State.Props.C122_setup State.Props.defaults_sound 2
  exact ⟨cc, .setup h, rfl⟩

/-- Non-vacuity of C215_cells_at_state. -/
example : State.Spec.Sound State.Props.defaults ∧ ∀ c < 2, State.Props.sand.Sr c < 1 :=
  ⟨State.Props.defaults_sound, fun _ _ => by norm_num [State.Props.sand]⟩

end

end TDy.Mpfao.Props
