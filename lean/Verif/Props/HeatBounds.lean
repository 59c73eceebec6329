import Verif.Spec.HeatBounds
import Verif.Props.HeatState
import Mathlib.Data.Finset.Max

/-! # C216: temperatures stay within the values they started with -/

namespace TDy.Mpfao.Props

open TDy TDy.Mpfao TDy.Mpfao.Spec TDy.Mpfao.Proofs Finset

noncomputable section

/-- Two-point conduction with coefficients that are not negative goes from hot to cold; amounts that are
too small to count are cut off without changing that. -/
theorem C216_two_point (t : Th) (k : Nat → Nat → ℝ)
    (h : ∀ v i, IsSubface t.base v i → 0 ≤ k v i ∧ ttimesTemp t (slot (t.base.vert v) i) =
      k v i*(tempOf t (faceOf t.base v i).dn - tempOf t (faceOf t.base v i).up)) : HotToCold t := by
  have z : (0.0 : ℝ) = 0 := by norm_num
  intro v i hs
  obtain ⟨hk, e⟩ := h v i hs
  unfold thTempTP chop
  rw [e, z]
  constructor <;> intro hT <;> split
  · exact le_rfl
  · exact mul_nonneg hk (by linarith)
  · exact le_rfl
  · exact mul_nonpos_of_nonneg_of_nonpos hk (by linarith)

/-- The rate at which a cell warms. -/
theorem C216_rate (t : Th) (H : ℝ) (r : RockAndWater t H) (dt : ℝ) (T0 dpdt : Nat → ℝ)
    (st : HeatStep t dt T0 dpdt) (j : Nat) (hj : j < t.base.numCells) :
    (t.heat j).rock*(1 - t.base.por j)*t.base.vol j*(((t.heat j).T - T0 j)/dt) =
      heating t H dpdt j*t.base.vol j - conductedOut t j := by
  have e := C215_energy_balance t H r.one r.faces r.bnd r.own dpdt
    (fun j => ((t.heat j).T - T0 j)/dt) j hj
  rw [st.water j hj, st.energy j hj] at e
  unfold heating
  linarith

theorem conducted_from_hottest (t : Th) (h : HotToCold t) (j : Nat)
    (top : ∀ v i, IsSubface t.base v i → tempOf t (faceOf t.base v i).up ≤ (t.heat j).T ∧
      tempOf t (faceOf t.base v i).dn ≤ (t.heat j).T) : 0 ≤ conductedOut t j := by
  have ej : tempOf t (j : ℤ) = (t.heat j).T := by simp [tempOf]
  unfold conductedOut cellOutflow overSubfaces
  refine sum_nonneg fun v hv => sum_nonneg fun i hi => ?_
  have hs : IsSubface t.base v i := ⟨mem_range.1 hv, mem_range.1 hi⟩
  obtain ⟨a, b⟩ := h v i hs
  obtain ⟨u, d⟩ := top v i hs
  dsimp only
  by_cases h1 : (faceOf t.base v i).up = j
  · by_cases h2 : (faceOf t.base v i).dn = j
    · rw [if_pos h1, if_pos h2]; linarith
    · rw [if_pos h1, if_neg h2]
      rw [h1, ej] at b
      linarith [b d]
  · by_cases h2 : (faceOf t.base v i).dn = j
    · rw [if_neg h1, if_pos h2]
      rw [h2, ej] at a
      linarith [a u]
    · rw [if_neg h1, if_neg h2]; linarith

theorem conducted_from_coldest (t : Th) (h : HotToCold t) (j : Nat)
    (bot : ∀ v i, IsSubface t.base v i → (t.heat j).T ≤ tempOf t (faceOf t.base v i).up ∧
      (t.heat j).T ≤ tempOf t (faceOf t.base v i).dn) : conductedOut t j ≤ 0 := by
  have ej : tempOf t (j : ℤ) = (t.heat j).T := by simp [tempOf]
  unfold conductedOut cellOutflow overSubfaces
  refine sum_nonpos fun v hv => sum_nonpos fun i hi => ?_
  have hs : IsSubface t.base v i := ⟨mem_range.1 hv, mem_range.1 hi⟩
  obtain ⟨a, b⟩ := h v i hs
  obtain ⟨u, d⟩ := bot v i hs
  dsimp only
  by_cases h1 : (faceOf t.base v i).up = j
  · by_cases h2 : (faceOf t.base v i).dn = j
    · rw [if_pos h1, if_pos h2]; linarith
    · rw [if_pos h1, if_neg h2]
      rw [h1, ej] at a
      linarith [a d]
  · by_cases h2 : (faceOf t.base v i).dn = j
    · rw [if_neg h1, if_pos h2]
      rw [h2, ej] at b
      linarith [b u]
    · rw [if_neg h1, if_neg h2]; linarith

/-- Every side of a face is a cell or a boundary face of the mesh. -/
theorem tempOf_cases (t : Th) (id : ℤ) (hc : id < t.base.numCells)
    (hb : id < 0 → (-id - 1).toNat < t.base.numBnd) :
    (∃ c < t.base.numCells, tempOf t id = (t.heat c).T) ∨
      ∃ b < t.base.numBnd, tempOf t id = t.tBnd b := by
  unfold tempOf
  split
  · exact .inl ⟨_, by omega, rfl⟩
  · exact .inr ⟨_, hb (by omega), rfl⟩

/-- Where nothing heats the cells, no cell gets hotter than all cells before the step and the boundary. -/
theorem C216_highest_partial (t : Th) (H : ℝ) (r : RockAndWater t H) (hc : HotToCold t) (dt : ℝ)
    (T0 dpdt : Nat → ℝ) (st : HeatStep t dt T0 dpdt)
    (cool : ∀ j < t.base.numCells, heating t H dpdt j ≤ 0) (M : ℝ)
    (h0 : ∀ j < t.base.numCells, T0 j ≤ M) (hb : ∀ b < t.base.numBnd, t.tBnd b ≤ M) :
    ∀ j < t.base.numCells, (t.heat j).T ≤ M := by
  intro i hi
  obtain ⟨j, hj, top⟩ := exists_max_image (range t.base.numCells) (fun j => (t.heat j).T)
    ⟨i, mem_range.2 hi⟩
  have hj := mem_range.1 hj
  refine (top i (mem_range.2 hi)).trans ?_
  by_contra hM
  have hM : M < (t.heat j).T := not_le.1 hM
  have side : ∀ id : ℤ, id < t.base.numCells → (id < 0 → (-id - 1).toNat < t.base.numBnd) →
      tempOf t id ≤ (t.heat j).T := by
    intro id h1 h2
    rcases tempOf_cases t id h1 h2 with ⟨c, hc, e⟩ | ⟨b, hb', e⟩
    · rw [e]; exact top c (mem_range.2 hc)
    · rw [e]; exact (hb b hb').trans hM.le
  have out := conducted_from_hottest t hc j fun v i hs =>
    ⟨side _ (r.faces.up v i hs) (r.bnd.up v i hs), side _ (r.faces.dn v i hs) (r.bnd.dn v i hs)⟩
  have e := C216_rate t H r dt T0 dpdt st j hj
  have k : 0 < (t.heat j).rock*(1 - t.base.por j)*t.base.vol j :=
    mul_pos (mul_pos (r.rock j hj) (by linarith [r.por j hj])) (r.vol j hj)
  have hv := mul_nonpos_of_nonpos_of_nonneg (cool j hj) (r.vol j hj).le
  have up : 0 < ((t.heat j).T - T0 j)/dt := div_pos (by linarith [h0 j hj]) st.pos
  linarith [mul_pos k up]

/-- Where nothing cools the cells, no cell gets colder than all cells before the step and the
boundary. -/
theorem C216_lowest_partial (t : Th) (H : ℝ) (r : RockAndWater t H) (hc : HotToCold t) (dt : ℝ)
    (T0 dpdt : Nat → ℝ) (st : HeatStep t dt T0 dpdt)
    (warm : ∀ j < t.base.numCells, 0 ≤ heating t H dpdt j) (m : ℝ)
    (h0 : ∀ j < t.base.numCells, m ≤ T0 j) (hb : ∀ b < t.base.numBnd, m ≤ t.tBnd b) :
    ∀ j < t.base.numCells, m ≤ (t.heat j).T := by
  intro i hi
  obtain ⟨j, hj, bot⟩ := exists_min_image (range t.base.numCells) (fun j => (t.heat j).T)
    ⟨i, mem_range.2 hi⟩
  have hj := mem_range.1 hj
  refine le_trans ?_ (bot i (mem_range.2 hi))
  by_contra hM
  have hM : (t.heat j).T < m := not_le.1 hM
  have side : ∀ id : ℤ, id < t.base.numCells → (id < 0 → (-id - 1).toNat < t.base.numBnd) →
      (t.heat j).T ≤ tempOf t id := by
    intro id h1 h2
    rcases tempOf_cases t id h1 h2 with ⟨c, hc, e⟩ | ⟨b, hb', e⟩
    · rw [e]; exact bot c (mem_range.2 hc)
    · rw [e]; exact hM.le.trans (hb b hb')
  have out := conducted_from_coldest t hc j fun v i hs =>
    ⟨side _ (r.faces.up v i hs) (r.bnd.up v i hs), side _ (r.faces.dn v i hs) (r.bnd.dn v i hs)⟩
  have e := C216_rate t H r dt T0 dpdt st j hj
  have k : 0 < (t.heat j).rock*(1 - t.base.por j)*t.base.vol j :=
    mul_pos (mul_pos (r.rock j hj) (by linarith [r.por j hj])) (r.vol j hj)
  have hv := mul_nonneg (warm j hj) (r.vol j hj).le
  have up : ((t.heat j).T - T0 j)/dt < 0 := div_neg_of_neg_of_pos (by linarith [h0 j hj]) st.pos
  linarith [mul_neg_of_pos_of_neg k up]

/-- Any number of steps, with changing flows and boundary temperatures, in which the water of the cells is
steady and nothing else heats or cools them: all temperatures stay between bounds that hold for the
first ones and for the boundary. -/
theorem C216_run_partial (n : Nat) (t : Nat → Th) (H : ℝ) (dt : Nat → ℝ) (dpdt : Nat → Nat → ℝ)
    (K : Nat) (size : ∀ k ≤ K, (t k).base.numCells = n) (r : ∀ k ≤ K, RockAndWater (t k) H)
    (hc : ∀ k ≤ K, HotToCold (t k))
    (st : ∀ k < K, HeatStep (t (k + 1)) (dt k) (fun j => ((t k).heat j).T) (dpdt k))
    (quiet : ∀ k < K, ∀ j < n, heating (t (k + 1)) H (dpdt k) j = 0) (m M : ℝ)
    (h0 : ∀ j < n, m ≤ ((t 0).heat j).T ∧ ((t 0).heat j).T ≤ M)
    (hb : ∀ k ≤ K, ∀ b < (t k).base.numBnd, m ≤ (t k).tBnd b ∧ (t k).tBnd b ≤ M) :
    ∀ k ≤ K, ∀ j < n, m ≤ ((t k).heat j).T ∧ ((t k).heat j).T ≤ M := by
  intro k
  induction k with
  | zero => exact fun _ => h0
  | succ k ih =>
    intro hk j hj
    have ih := ih (by omega)
    have e := size (k + 1) hk
    constructor
    · refine C216_lowest_partial (t (k + 1)) H (r _ hk) (hc _ hk) (dt k) _ (dpdt k) (st k (by omega))
        (fun j hj => ?_) m (fun j hj => ?_) (fun b h => (hb _ hk b h).1) j (e ▸ hj)
      · exact (quiet k (by omega) j (e ▸ hj)).ge
      · exact (ih j (e ▸ hj)).1
    · refine C216_highest_partial (t (k + 1)) H (r _ hk) (hc _ hk) (dt k) _ (dpdt k) (st k (by omega))
        (fun j hj => ?_) M (fun j hj => ?_) (fun b h => (hb _ hk b h).2) j (e ▸ hj)
      · exact (quiet k (by omega) j (e ▸ hj)).le
      · exact (ih j (e ▸ hj)).2

/-! ## Witnesses -/

namespace FillWitness

open StreamWitness (face v s M)

/-- One cell at pressure 5 whose water grows by 1 per volume and pressure, between boundaries at `5 + q`
and 5. -/
def c (q : ℝ) : Ctx :=
  { StreamWitness.c q with
    cells := fun _ => { s 5 with drho := 2 }
    bnds := fun b => match b with
      | 0 => s (5 + q)
      | _ => s 5 }

/-- The cell at temperature `T`, the boundary at 20. -/
def t (q T : ℝ) : Th :=
  { StreamWitness.t q 1 20 with base := c q, heat := fun _ => { StreamWitness.heat with T := T } }

theorem one (q T : ℝ) : OneEnthalpy (t q T) 1.8890 := by
  refine ⟨fun _ _ => rfl, fun _ _ => ?_, fun _ _ => ⟨rfl, rfl, rfl, rfl⟩, fun _ _ => rfl⟩
  simp [t, c, s, StreamWitness.heat]

theorem rockAndWater (q T : ℝ) : RockAndWater (t q T) 1.8890 := by
  refine ⟨one q T, ?_, ?_, ?_, fun _ _ => ?_, fun _ _ => ?_, fun _ _ => ?_⟩
  · constructor <;> intro w i hs <;> rcases i with _ | _ | i <;>
      simp [t, c, StreamWitness.c, v, face, faceOf]
  · constructor <;> intro w i hs <;> rcases i with _ | _ | i <;>
      simp [t, c, StreamWitness.c, v, face, faceOf]
  · refine ⟨fun _ => rfl, fun f => ?_, fun _ => rfl⟩
    rcases f with _ | f <;> rfl
  · simp [t, StreamWitness.heat]
  · simp [t, c, StreamWitness.c]; norm_num
  · simp [t, c, StreamWitness.c]

theorem ttimes (q T : ℝ) : ttimesTemp (t q T) (slot ((t q T).base.vert 0) 0) = T - 20 ∧
    ttimesTemp (t q T) (slot ((t q T).base.vert 0) 1) = 20 - T := by
  constructor <;>
    simp [ttimesTemp, transMat_apply, wslot, heatCtx, t, c, StreamWitness.t, StreamWitness.c, v, slot,
      M, tempVec, StreamWitness.heat, sum_range_succ] <;> ring

theorem hotToCold (q T : ℝ) : HotToCold (t q T) := by
  refine C216_two_point _ (fun _ _ => 1) fun w i hs => ⟨zero_le_one, ?_⟩
  obtain ⟨hw, hi⟩ := hs
  have hw : w = 0 := by
    have : w < 1 := hw
    omega
  subst hw
  have hi : i < 2 := hi
  rcases i with _ | _ | i
  · rw [(ttimes q T).1]
    simp [faceOf, t, c, StreamWitness.c, v, face, tempOf, StreamWitness.t]
  · rw [(ttimes q T).2]
    simp [faceOf, t, c, StreamWitness.c, v, face, tempOf, StreamWitness.t]
  · omega

theorem tp (q T : ℝ) (hq : 1 ≤ q) : thTP (t q T) 0 0 = -q ∧ thTP (t q T) 0 1 = 0 := by
  have z : (0.0 : ℝ) = 0 := by norm_num
  have e0 : ttimesP (t q T).base (slot ((t q T).base.vert 0) 0) = -q := by
    simp [ttimesP, transMat_apply, wslot, t, c, StreamWitness.c, v, slot, M, pVec, s, sum_range_succ]
  have e1 : ttimesP (t q T).base (slot ((t q T).base.vert 0) 1) = 0 := by
    simp [ttimesP, transMat_apply, wslot, t, c, StreamWitness.c, v, slot, M, pVec, s, sum_range_succ]
  unfold thTP
  rw [e0, e1]
  have : ¬ |-q| < (1/1000 : ℝ) := by rw [abs_neg, abs_of_pos (by linarith)]; linarith
  exact ⟨if_neg this, by unfold chop; split <;> simp [z]⟩

theorem waterOut_eq (q T : ℝ) (hq : 1 ≤ q) : waterOut (t q T) 0 = -q := by
  have f0 : thFluxm (t q T) 0 0 = q := by
    unfold thFluxm
    rw [(tp q T hq).1]
    simp [denAvg, ukvrTP, side, t, c, StreamWitness.c, v, face, s]; norm_num
  have f1 : thFluxm (t q T) 0 1 = 0 := by
    unfold thFluxm
    rw [(tp q T hq).2]
    simp
  unfold waterOut cellOutflow overSubfaces
  have e : (t q T).base.numVertices = 1 := rfl
  have e' : ((t q T).base.vert 0).nRows = 2 := rfl
  rw [e, sum_range_one, e', sum_range_succ, sum_range_one]
  dsimp only
  rw [f0, f1]
  simp [faceOf, t, c, StreamWitness.c, v, face]

theorem conducted (q T : ℝ) (hT : 21 ≤ T) : conductedOut (t q T) 0 = 2*(T - 20) := by
  have h : (1/1000 : ℝ) ≤ |T - 20| := by rw [abs_of_pos (by linarith)]; linarith
  have h' : (1/1000 : ℝ) ≤ |20 - T| := by rw [abs_sub_comm]; exact h
  have f0 : thTempTP (t q T) 0 0 = T - 20 := by
    unfold thTempTP
    rw [(ttimes q T).1]
    exact if_neg (not_lt.2 h)
  have f1 : thTempTP (t q T) 0 1 = 20 - T := by
    unfold thTempTP
    rw [(ttimes q T).2]
    exact if_neg (not_lt.2 h')
  unfold conductedOut cellOutflow overSubfaces
  have e : (t q T).base.numVertices = 1 := rfl
  have e' : ((t q T).base.vert 0).nRows = 2 := rfl
  rw [e, sum_range_one, e', sum_range_succ, sum_range_one]
  dsimp only
  rw [f0, f1]
  simp [faceOf, t, c, StreamWitness.c, v, face]
  ring

/-- Water flows in at the rate 6 into a volume of 2; the pressure rises at the rate 3, as each unit of
pressure makes room for one unit of water per volume. -/
theorem step : HeatStep (t 6 21) (1/7) (fun _ => 20) (fun _ => 3) := by
  have w : thFunction (t 6 21) (fun _ => 3) (fun _ => ((21 : ℝ) - 20)/(1/7)) (2*0) = 0 := by
    rw [(C54_cell (t 6 21) (rockAndWater 6 21).own _ _ 0 (by simp [t, c, StreamWitness.c])).1]
    have k := waterOut_eq 6 21 (by norm_num)
    unfold waterOut at k
    rw [k]
    simp [thDmassdP, thDmassdT, t, c, StreamWitness.c, s, StreamWitness.heat]
    norm_num
  have hj0 : ∀ j, j < (t 6 21).base.numCells → j = 0 := fun j hj => by
    have : j < 1 := hj
    omega
  refine ⟨by norm_num, fun j hj => ?_, fun j hj => ?_⟩
  · rw [hj0 j hj]; exact w
  · rw [hj0 j hj]
    have e := C215_energy_balance (t 6 21) 1.8890 (one 6 21) (rockAndWater 6 21).faces
      (rockAndWater 6 21).bnd (rockAndWater 6 21).own (fun _ => 3)
      (fun _ => ((21 : ℝ) - 20)/(1/7)) 0 (by simp [t, c, StreamWitness.c])
    refine Eq.trans e ?_
    rw [w, conducted 6 21 le_rfl]
    simp [waterRate, t, c, StreamWitness.c, s, StreamWitness.heat]
    norm_num

end FillWitness

namespace WarmWitness

open StreamWitness (face v s M)

/-- A steady stream of 7; the water upstream has 40 degrees. -/
def t : Th := StreamWitness.t 7 1 40

theorem rockAndWater : RockAndWater t 1.8890 := by
  refine ⟨StreamWitness.one 7 1 40, StreamWitness.facesOk 7 1 40, StreamWitness.boundaryOk 7 1 40,
    StreamWitness.ownsAll 7 1 40, fun _ _ => ?_, fun _ _ => ?_, fun _ _ => ?_⟩
  · simp [t, StreamWitness.t, StreamWitness.heat]
  · simp [t, StreamWitness.t, StreamWitness.c]; norm_num
  · simp [t, StreamWitness.t, StreamWitness.c]

theorem ttimes : ttimesTemp t (slot (t.base.vert 0) 0) = -20 ∧
    ttimesTemp t (slot (t.base.vert 0) 1) = 0 := by
  constructor <;>
    simp [ttimesTemp, transMat_apply, wslot, heatCtx, t, StreamWitness.t, StreamWitness.c, v, slot,
      M, tempVec, StreamWitness.heat, sum_range_succ] <;> norm_num

theorem hotToCold : HotToCold t := by
  refine C216_two_point _ (fun _ _ => 1) fun w i hs => ⟨zero_le_one, ?_⟩
  obtain ⟨hw, hi⟩ := hs
  have hw : w = 0 := by
    have : w < 1 := hw
    omega
  subst hw
  have hi : i < 2 := hi
  rcases i with _ | _ | i
  · rw [ttimes.1]
    simp [faceOf, t, StreamWitness.c, v, face, tempOf, StreamWitness.t, StreamWitness.heat]; norm_num
  · rw [ttimes.2]
    simp [faceOf, t, StreamWitness.c, v, face, tempOf, StreamWitness.t, StreamWitness.heat]
  · omega

theorem conducted : conductedOut t 0 = -20 := by
  have z : (0.0 : ℝ) = 0 := by norm_num
  have f0 : thTempTP t 0 0 = -20 := by
    unfold thTempTP
    rw [ttimes.1]
    simp [chop, t, StreamWitness.t]; norm_num
  have f1 : thTempTP t 0 1 = 0 := by
    unfold thTempTP
    rw [ttimes.2]
    unfold chop
    split <;> simp [z]
  unfold conductedOut cellOutflow overSubfaces
  have e : t.base.numVertices = 1 := rfl
  have e' : (t.base.vert 0).nRows = 2 := rfl
  rw [e, sum_range_one, e', sum_range_succ, sum_range_one]
  dsimp only
  rw [f0, f1]
  simp [faceOf, t, StreamWitness.t, StreamWitness.c, v, face]

theorem step : HeatStep t 1 (fun _ => 15) (fun _ => 0) := by
  have hj0 : ∀ j, j < t.base.numCells → j = 0 := fun j hj => by
    have : j < 1 := hj
    omega
  have h := (C215_steady_violated t 1.8890 rockAndWater.one rockAndWater.faces rockAndWater.bnd
    rockAndWater.own (fun _ => 0) (fun j => ((t.heat j).T - 15)/1) 0
    (by simp [t, StreamWitness.t, StreamWitness.c]) (StreamWitness.steady 7 1 40 (by norm_num)) rfl).2
    (by
      rw [conducted]
      simp [t, StreamWitness.t, StreamWitness.c, StreamWitness.heat]; norm_num)
  refine ⟨one_pos, fun j hj => ?_, fun j hj => ?_⟩
  · rw [hj0 j hj]; exact h.1
  · rw [hj0 j hj]; exact h.2

theorem quiet (j : Nat) : heating t 1.8890 (fun _ => 0) j = 0 := by
  simp [heating, waterRate, t, StreamWitness.t, StreamWitness.c, StreamWitness.heat]

end WarmWitness

/-- Non-vacuity: a step from 15 to 20 degrees between boundaries of 40 and 20 degrees. -/
example : RockAndWater WarmWitness.t 1.8890 ∧ HotToCold WarmWitness.t ∧
    HeatStep WarmWitness.t 1 (fun _ => 15) (fun _ => 0) ∧
    (∀ j < WarmWitness.t.base.numCells, heating WarmWitness.t 1.8890 (fun _ => 0) j = 0) ∧
    (∀ b < WarmWitness.t.base.numBnd, 15 ≤ WarmWitness.t.tBnd b ∧ WarmWitness.t.tBnd b ≤ 40) := by
  refine ⟨WarmWitness.rockAndWater, WarmWitness.hotToCold, WarmWitness.step,
    fun j _ => WarmWitness.quiet j, fun b _ => ?_⟩
  rcases b with _ | b
  · exact ⟨by show (15:ℝ) ≤ 40; norm_num, le_rfl⟩
  · exact ⟨by show (15:ℝ) ≤ 20; norm_num, by show (20:ℝ) ≤ 40; norm_num⟩

/-- C216 is violated: cell, inflowing water and boundary have 20 degrees and there is no heat source; the
cell takes up water, and after the step it has 21 degrees. -/
theorem C216_filling_violated : ∃ (t : Th) (dt : ℝ) (T0 dpdt : Nat → ℝ),
    RockAndWater t 1.8890 ∧ HotToCold t ∧ HeatStep t dt T0 dpdt ∧ t.base.numCells = 1 ∧
    (∀ j, T0 j = 20) ∧ (∀ b < t.base.numBnd, t.tBnd b = 20) ∧
    (∀ j, (t.heat j).source = 0 ∧ t.base.source j = 0) ∧ (t.heat 0).T = 21 := by
  refine ⟨FillWitness.t 6 21, 1/7, fun _ => 20, fun _ => 3, FillWitness.rockAndWater 6 21,
    FillWitness.hotToCold 6 21, FillWitness.step, rfl, fun _ => rfl, fun b _ => ?_,
    fun _ => ⟨rfl, rfl⟩, rfl⟩
  rcases b with _ | b <;> rfl

end

end TDy.Mpfao.Props
