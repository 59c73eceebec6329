import Verif.Spec.SaltBounds
import Verif.Props.MpfaoCoupled
import Verif.Props.RunBalance
import Mathlib.Tactic.FieldSimp
import Mathlib.Tactic.IntervalCases

/-!
# C212: the concentration of salt and the values it started with

The salt flux of a subface is the water flux (tdympfao_snes_salinity.c 188-194: no concentration in
the advective part).  So all that a cell gains or loses is counted as salt, and `(1 - psi)*W` never
changes.
-/

namespace TDy.Mpfao.Props

open TDy.Mpfao TDy.Mpfao.Spec TDy.Mpfao.Proofs Finset
open TDy.Fvtpf (Side Bc)

noncomputable section

theorem advected_flux (s : Sal) (ha : AdvectionOnly s) (v i : Nat) :
    salFluxt s v i = salFluxm s v i := by
  unfold salFluxt salFluxm
  rw [ha.gravity, ha.dispersion]
  ring

theorem freshPart_eq (s : Sal) (j : Nat) : freshPart s j = waterMass s.base j - saltMass s j := by
  unfold freshPart saltMass; ring

/-- The two residuals of a cell differ by the change of what is not salt. -/
theorem freshPart_residual (s0 s : Sal) (own0 : OwnsAll s0.base) (own : OwnsAll s.base)
    (hn : s0.base.numCells = s.base.numCells) (ha : AdvectionOnly s) (dtime : ℝ) (hdt : dtime ≠ 0)
    (old : Nat → ℝ) (j : Nat) (hj : j < s.base.numCells) :
    freshPart s j - freshPart s0 j - dtime*(s.base.source j - s.saltSource j) =
      dtime*(salFunction s dtime (salPreSolve s0 dtime old) (2*j)
        - salFunction s dtime (salPreSolve s0 dtime old) (2*j + 1)) := by
  have hc := C53_cell s own dtime (salPreSolve s0 dtime old) j hj
  have hp := salPreSolve_apply s0 dtime old j (by rw [hn]; exact hj) (own0.cell j)
  have e : salFluxt s = salFluxm s := by
    funext v i; exact advected_flux s ha v i
  rw [hc.1, hc.2, hp.1, hp.2, snesAccum_eq, saltAccum_eq, e, freshPart_eq, freshPart_eq]
  field_simp
  ring

/-- What a step makes of a cell: whatever flows in or out, the part of the cell that is not salt
changes by the sources only. -/
theorem C212_fresh_part (s0 s : Sal) (dtime : ℝ) (hdt : dtime ≠ 0) (h : SalStep s0 s dtime)
    (ha : AdvectionOnly s) (j : Nat) (hj : j < s.base.numCells) :
    freshPart s j - freshPart s0 j = dtime*(s.base.source j - s.saltSource j) := by
  obtain ⟨old, hR⟩ := h.solved
  have := freshPart_residual s0 s h.own0 h.own h.cells ha dtime hdt old j hj
  rw [(hR j hj).1, (hR j hj).2] at this
  linarith

/-- The concentration after a step without sources depends on the cell's own history alone, not on
the concentrations of the cells and boundaries that the water came from. -/
theorem C212_concentration (s0 s : Sal) (dtime : ℝ) (hdt : dtime ≠ 0) (h : SalStep s0 s dtime)
    (ha : AdvectionOnly s) (hs : NoSources s) (j : Nat) (hj : j < s.base.numCells)
    (hW : 0 < waterMass s.base j) :
    s.psi j = 1 - (1 - s0.psi j)*(waterMass s0.base j/waterMass s.base j) := by
  have e := C212_fresh_part s0 s dtime hdt h ha j hj
  rw [hs.1, hs.2] at e
  unfold freshPart at e
  have hne := hW.ne'
  field_simp
  linarith

/-- C212 as far as it holds: one of the two bounds (a cell that is not all salt does not become
so), and both where the amount of water does not fall below what was fresh; a cell whose amount of
water does not change keeps its concentration.  Missing: the lower bound for the other cells, and
bounds by the concentrations around (`C212_bounds_violated`). -/
theorem C212_bounds_partial (s0 s : Sal) (dtime : ℝ) (hdt : dtime ≠ 0) (h : SalStep s0 s dtime)
    (ha : AdvectionOnly s) (hs : NoSources s) (j : Nat) (hj : j < s.base.numCells)
    (hW0 : 0 < waterMass s0.base j) (hW : 0 < waterMass s.base j) :
    (s0.psi j < 1 → s.psi j < 1) ∧ (s0.psi j ≤ 1 → s.psi j ≤ 1) ∧
    (0 ≤ s.psi j ↔ (1 - s0.psi j)*waterMass s0.base j ≤ waterMass s.base j) ∧
    (waterMass s.base j = waterMass s0.base j → s.psi j = s0.psi j) := by
  have e := C212_concentration s0 s dtime hdt h ha hs j hj hW
  have hq : 0 < waterMass s0.base j/waterMass s.base j := div_pos hW0 hW
  refine ⟨fun h1 => ?_, fun h1 => ?_, ?_, fun hw => ?_⟩
  · rw [e]; have := mul_pos (sub_pos.2 h1) hq; linarith
  · rw [e]; have := mul_nonneg (sub_nonneg.2 h1) hq.le; linarith
  · rw [e, sub_nonneg, ← mul_div_assoc, div_le_one hW]
  · rw [e, hw, div_self hW0.ne']; ring

/-- Every cell that gains water becomes saltier and every cell that loses water becomes fresher, also
where all concentrations, those of the boundary included, are the same. -/
theorem C212_not_uniform (s0 s : Sal) (dtime : ℝ) (hdt : dtime ≠ 0) (h : SalStep s0 s dtime)
    (ha : AdvectionOnly s) (hs : NoSources s) (j : Nat) (hj : j < s.base.numCells)
    (hW : 0 < waterMass s.base j) (h1 : s0.psi j < 1) :
    (s0.psi j < s.psi j ↔ waterMass s0.base j < waterMass s.base j) ∧
    (s.psi j < s0.psi j ↔ waterMass s.base j < waterMass s0.base j) := by
  have e := C212_concentration s0 s dtime hdt h ha hs j hj hW
  have d : s.psi j - s0.psi j =
      (1 - s0.psi j)*(waterMass s.base j - waterMass s0.base j)/waterMass s.base j := by
    rw [e]; have := hW.ne'; field_simp; ring
  have hp := sub_pos.2 h1
  have k : ∀ x : ℝ, (0 < (1 - s0.psi j)*x/waterMass s.base j ↔ 0 < x) := fun x => by
    rw [div_pos_iff_of_pos_right hW, mul_pos_iff_of_pos_left hp]
  constructor
  · rw [← sub_pos, d, k, sub_pos]
  · have d' : s0.psi j - s.psi j =
        (1 - s0.psi j)*(waterMass s0.base j - waterMass s.base j)/waterMass s.base j := by
      rw [← neg_sub, d]; ring
    rw [← sub_pos, d', k, sub_pos]

/-! ## Whole runs -/

/-- Over any sequence of calls of `TDyTimeIntegratorRunToTime`: in every cell, what is not salt changes
by the sources only, up to twice the tolerance of the solver times the time that passes. -/
theorem C212_runs {V : Type} {c : Time.Cfg} {solver : Nat → V × Bool} {σ σ' : Time.Sim V}
    {syncs : List ℝ} {l : List (Time.Attempt V)} (h : Time.Props.Runs c solver σ syncs l σ')
    (hs : Time.Props.Ready σ) (at_ : V → Sal) (n : Nat)
    (m : Time.Props.MpfaoMesh (fun U => (at_ U).base) n) (ha : ∀ U, AdvectionOnly (at_ U)) (tol : ℝ)
    (solved : ∀ a ∈ l, a.ok = true → Time.Props.SalSolved at_ n tol a) (j : Nat) (hj : j < n) :
    Time.Spec.Settled (fun U => freshPart (at_ U) j)
      (fun U => (at_ U).base.source j - (at_ U).saltSource j) (2*tol) σ.solnPrev σ'.solnPrev l := by
  have mc : ∀ U, (at_ U).base.numCells = n := m.cells
  refine Time.Props.runs_balance h hs _ _ _ fun a hal hok hdt => ?_
  obtain ⟨old, hR⟩ := solved a hal hok
  rw [freshPart_residual (at_ a.prev) (at_ a.result) (m.own a.prev) (m.own a.result)
    ((mc _).trans (mc _).symm) (ha _) a.dtime hdt.ne' old j (by rw [mc]; exact hj), abs_mul,
    abs_of_pos hdt, mul_comm]
  refine mul_le_mul_of_nonneg_right ?_ hdt.le
  refine (abs_sub _ _).trans ?_
  have := hR j hj
  linarith [this.1, this.2]

/-! ## A step from fresh water -/

namespace BoundsWitness

/-- The flow of `FluxWitness` in half and other saturated cells. -/
def base (S0 S1 : ℝ) : Ctx :=
  { FluxWitness.c with
    cells := fun j => match j with
      | 0 => { FluxWitness.s 5 with S := S0 }
      | _ => { FluxWitness.s 3 with S := S1 } }

def at_ (S0 S1 : ℝ) (psi : Nat → ℝ) : Sal :=
  { base := base S0 S1, corner := fun _ => false, psiM := fun _ _ _ => 0, psi := psi
    psiBnd := fun _ => 0, saltSource := fun _ => 0 }

/-- Before: fresh water everywhere. -/
def s0 : Sal := at_ (3/4) (3/8) fun _ => 0

/-- After a time of 1/4. -/
def s1 : Sal := at_ (1/2) (1/2) fun j => if j = 0 then -1/2 else 1/4

theorem own (S0 S1 : ℝ) (psi : Nat → ℝ) : OwnsAll (at_ S0 S1 psi).base :=
  ⟨FluxWitness.ownsAll.vert, FluxWitness.ownsAll.face, FluxWitness.ownsAll.cell⟩

theorem ok (S0 S1 : ℝ) (psi : Nat → ℝ) : FacesOk (at_ S0 S1 psi).base :=
  ⟨FluxWitness.facesOk.up, FluxWitness.facesOk.dn⟩

theorem advection (S0 S1 : ℝ) (psi : Nat → ℝ) : AdvectionOnly (at_ S0 S1 psi) := by
  refine ⟨fun _ => rfl, fun row => ?_⟩
  unfold ttimesPsi
  refine sum_eq_zero fun b _ => ?_
  have : psiMat (at_ S0 S1 psi) row b = 0 := by
    rw [psiMat_apply]
    refine sum_eq_zero fun v' _ => sum_eq_zero fun i' _ => if_neg ?_
    rintro ⟨_, hc, _⟩
    exact absurd hc (by simp [at_])
  rw [this, zero_mul]

theorem fluxm_s1 : salFluxm s1 0 0 = 2 ∧ salFluxm s1 0 1 = 1 := by
  have e0 : ttimesP s1.base (slot (s1.base.vert 0) 0) = -2 := by
    simp [s1, at_, base, ttimesP, transMat_apply, wslot, FluxWitness.c, FluxWitness.v, slot,
      FluxWitness.M, pVec, FluxWitness.s, sum_range_succ]; norm_num
  have e1 : ttimesP s1.base (slot (s1.base.vert 0) 1) = -1 := by
    simp [s1, at_, base, ttimesP, transMat_apply, wslot, FluxWitness.c, FluxWitness.v, slot,
      FluxWitness.M, pVec, FluxWitness.s, sum_range_succ]; norm_num
  unfold salFluxm
  rw [e0, e1]
  constructor <;>
    simp [denAvg, ukvrTP, side, FluxWitness.face, s1, at_, base, FluxWitness.c, FluxWitness.v,
      FluxWitness.s] <;>
    norm_num

theorem out_s1 (j : Nat) (hj : j < 2) :
    cellOutflow s1.base (salFluxm s1) j = if j = 0 then 2 else -1 := by
  have e : cellOutflow s1.base (salFluxm s1) j =
      ((if (0:ℤ) = j then salFluxm s1 0 0 else 0) - (if (1:ℤ) = j then salFluxm s1 0 0 else 0)) +
      ((if (1:ℤ) = j then salFluxm s1 0 1 else 0) - (if (-1:ℤ) = j then salFluxm s1 0 1 else 0)) := by
    unfold cellOutflow overSubfaces
    have e1 : s1.base.numVertices = 1 := rfl
    have e2 : (s1.base.vert 0).nRows = 2 := rfl
    simp only [e1, e2, sum_range_succ, sum_range_zero, zero_add]
    rfl
  rw [e, fluxm_s1.1, fluxm_s1.2]
  interval_cases j <;> norm_num

theorem step : SalStep s0 s1 (1/4) := by
  refine ⟨rfl, own _ _ _, own _ _ _, fun _ => 0, fun j hj => ?_⟩
  have hj2 : j < 2 := hj
  have hc := C53_cell s1 (own _ _ _) (1/4) (salPreSolve s0 (1/4) fun _ => 0) j hj
  have hp := salPreSolve_apply s0 (1/4) (fun _ => 0) j hj ((own _ _ _).cell j)
  have e : salFluxt s1 = salFluxm s1 := by
    funext v i; exact advected_flux s1 (advection _ _ _) v i
  rw [hc.1, hc.2, hp.1, hp.2, snesAccum_eq, saltAccum_eq, e, out_s1 j hj2]
  interval_cases j <;>
    norm_num [saltMass, waterMass, s1, s0, at_, base, FluxWitness.c, FluxWitness.s]

theorem noSources : NoSources s1 := ⟨fun _ => rfl, fun _ => rfl⟩

theorem masses : waterMass s0.base 0 = 3/2 ∧ waterMass s0.base 1 = 3/4 ∧ waterMass s1.base 0 = 1 ∧
    waterMass s1.base 1 = 1 := by
  refine ⟨?_, ?_, ?_, ?_⟩ <;>
    norm_num [waterMass, s1, s0, at_, base, FluxWitness.c, FluxWitness.s]

end BoundsWitness

/-- C212 is violated: a solved step from fresh water with a fresh boundary, without any source of
salt, ends with a negative concentration upstream and with salt downstream; and no step from this
state that ends with this water has another result. -/
theorem C212_bounds_violated : ∃ (s0 s : Sal) (dtime : ℝ), 0 < dtime ∧ FacesOk s.base ∧
    SalStep s0 s dtime ∧ Fresh s0 ∧ Possible s0 ∧ (∀ b, s.psiBnd b = 0) ∧ NoSources s ∧
    AdvectionOnly s ∧ s.psi 0 = -1/2 ∧ s.psi 1 = 1/4 ∧ ¬ Possible s ∧
    ∀ s' : Sal, s'.base = s.base → AdvectionOnly s' → NoSources s' → SalStep s0 s' dtime →
      s'.psi 0 = -1/2 ∧ s'.psi 1 = 1/4 := by
  have m := BoundsWitness.masses
  refine ⟨BoundsWitness.s0, BoundsWitness.s1, 1/4, by norm_num, BoundsWitness.ok _ _ _,
    BoundsWitness.step, ⟨fun _ => rfl, fun _ => rfl⟩,
    fun j _ => by simp [BoundsWitness.s0, BoundsWitness.at_], fun _ => rfl,
    BoundsWitness.noSources, BoundsWitness.advection _ _ _, by simp [BoundsWitness.s1, BoundsWitness.at_],
    by simp [BoundsWitness.s1, BoundsWitness.at_], fun h => ?_, fun s' hb ha hs h => ?_⟩
  · have := (h 0 (by show 0 < 2; norm_num)).1
    simp [BoundsWitness.s1, BoundsWitness.at_] at this
    linarith
  · have w0 : waterMass s'.base 0 = 1 := by rw [hb]; exact m.2.2.1
    have w1 : waterMass s'.base 1 = 1 := by rw [hb]; exact m.2.2.2
    have hn : s'.base.numCells = 2 := by rw [hb]; rfl
    have e0 := C212_concentration _ s' _ (by norm_num) h ha hs 0 (by rw [hn]; norm_num)
      (by rw [w0]; norm_num)
    have e1 := C212_concentration _ s' _ (by norm_num) h ha hs 1 (by rw [hn]; norm_num)
      (by rw [w1]; norm_num)
    rw [e0, e1, w0, w1, m.1, m.2.1]
    norm_num [BoundsWitness.s0, BoundsWitness.at_]

/-- Non-vacuity: the step above meets the hypotheses of the theorems on single steps. -/
example : (BoundsWitness.s0.psi 1 < BoundsWitness.s1.psi 1) ∧ BoundsWitness.s1.psi 0 < 1 :=
  have m := BoundsWitness.masses
  ⟨(C212_not_uniform _ _ (1/4) (by norm_num) BoundsWitness.step (BoundsWitness.advection _ _ _)
    BoundsWitness.noSources 1 (by show 1 < 2; norm_num)
    (by rw [m.2.2.2]; norm_num) (by simp [BoundsWitness.s0, BoundsWitness.at_])).1.2
    (by rw [m.2.1, m.2.2.2]; norm_num),
  (C212_bounds_partial _ _ (1/4) (by norm_num) BoundsWitness.step (BoundsWitness.advection _ _ _)
    BoundsWitness.noSources 0 (by show 0 < 2; norm_num) (by rw [m.1]; norm_num)
    (by rw [m.2.2.1]; norm_num)).1 (by simp [BoundsWitness.s0, BoundsWitness.at_])⟩

/-- Non-vacuity of `C212_runs`: the run of C193 with water that flows through the mesh. -/
example : Time.Spec.Settled (fun _ : ℝ => freshPart Time.Props.ThroughWitness.salty 1)
    (fun _ => Time.Props.ThroughWitness.salty.base.source 1 - Time.Props.ThroughWitness.salty.saltSource 1)
    (2*0) Time.Props.TankWitness.start.solnPrev Time.Props.TankWitness.goodStop.solnPrev
    (Time.Spec.attempts Time.Props.TankWitness.goodStop.trace ++ []) :=
  C212_runs (.cons Time.Props.ThroughWitness.goodRunM (by norm_num [Time.Props.TankWitness.start]) (.nil _))
    Time.Props.TankWitness.ready (fun _ => Time.Props.ThroughWitness.salty) 2
    ⟨Time.Props.ThroughWitness.flow_mesh.cells, Time.Props.ThroughWitness.flow_mesh.faces,
      Time.Props.ThroughWitness.flow_mesh.own⟩
    (fun _ => ⟨fun _ => rfl, C53_fresh_dispersion _ ⟨fun _ => rfl, fun _ => rfl⟩⟩) 0
    (fun a _ _ => Time.Props.ThroughWitness.salty_solved a) 1 (by norm_num)

end

end TDy.Mpfao.Props
