import Verif.Props.Fvtpf
import Verif.Spec.FvtpfMonotone
import Verif.Props.Curves
import Verif.Props.Eos
import Mathlib.Algebra.Order.BigOperators.Group.Finset
import Mathlib.Algebra.Order.BigOperators.Ring.Finset
import Mathlib.Data.Finset.Max

/-!
# C180, C181: what a solved step of the two-point method can do
-/

namespace TDy.Fvtpf.Props

open TDy.Fvtpf TDy.Fvtpf.Spec TDy.Fvtpf.Proofs TDy.Geo Finset

noncomputable section

/-! ## The balance of a cell -/

theorem fill_mass (prev : Ctx) (own : ∀ j, prev.isLocal j = true) (dt : ℝ) (old : Nat → ℝ) (j : Nat)
    (hj : j < prev.numCells) : fillAccum prev dt old j = mass prev j/dt := by
  have hb : (fun i (a : Nat → ℝ) => if !prev.isLocal i then a
      else wr a i (accumulation prev dt i)) = fun i a => wr a i (accumulation prev dt i) := by
    funext i a; simp [own]
  unfold fillAccum
  rw [hb, forN_fill, if_pos hj]
  unfold accumulation mass; ring

/-- The balance of every cell of a solved step. -/
theorem balance {prev c : Ctx} {dt : ℝ} (h : Solved prev c dt) : ∃ junk : Nat → ℝ,
    (∀ i < c.numFaces, IsOpenBoundary c i → (boundaryFlux c (c.face i)).isSome = true) ∧
    ∀ j < c.numCells,
      ∑ i ∈ range c.numFaces, internalTerm c junk i j +
      ∑ i ∈ range c.numFaces, boundaryTerm c i j +
      (mass c j/dt - mass prev j/dt - c.source j) = 0 := by
  obtain ⟨old, junk, R, hR, h0⟩ := h.zero
  refine ⟨junk, ?_, ?_⟩
  · intro i hi hb
    have hs : (boundaryLoop c (internalLoop c junk (fun _ => 0))).isSome = true := by
      unfold snesFunction at hR
      rw [Option.map_eq_some_iff] at hR
      obtain ⟨a, ha, -⟩ := hR
      rw [ha]; rfl
    exact (boundaryLoop_isSome c _).1 hs i hi hb.1 hb.2.1 hb.2.2
  · intro j hj
    have e := snesFunction_apply c dt _ junk R hR j
    rw [h0 j hj, if_pos ⟨hj, h.own j⟩, fill_mass prev h.ownPrev dt old j (by rw [h.cells]; exact hj)] at e
    have : accumulation c dt j = mass c j/dt := by unfold accumulation mass; ring
    rw [this] at e
    exact e.symm

/-! ## C180 : no new highest pressure -/

/-- The sign of a two-point flux without gravity. -/
theorem residual_sign {Dq w area : ℝ} {up dn : Side} {old : ℝ} (hD : 0 ≤ Dq) (hA : 0 ≤ area)
    (hw : 0 ≤ w ∧ w ≤ 1) (hu : Physical up) (hd : Physical dn) (hm : mobile up dn) :
    (dn.P ≤ up.P → 0 ≤ residual Dq 0 w area up dn old) ∧
    (up.P ≤ dn.P → residual Dq 0 w area up dn old ≤ 0) := by
  have hden := denAve_pos hw.1 hw.2 hu.rho hd.rho
  have hphi : dphi 0 w up dn = up.P - dn.P := by unfold dphi; ring
  rw [residual_mobile hm, hphi]
  have h1 : 0 ≤ up.Kr/up.vis := div_nonneg hu.Kr hu.vis.le
  have h2 : 0 ≤ dn.Kr/dn.vis := div_nonneg hd.Kr hd.vis.le
  have h3 : 0 ≤ (if up.P - dn.P ≥ 0.0 then up.Kr/up.vis else dn.Kr/dn.vis) := by
    split <;> assumption
  constructor
  · intro h
    have : 0 ≤ up.P - dn.P := by linarith
    positivity
  · intro h
    have h4 : up.P - dn.P ≤ 0 := by linarith
    have h5 := mul_nonpos_of_nonneg_of_nonpos (mul_nonneg hD h3) h4
    exact mul_nonpos_of_nonpos_of_nonneg (mul_nonpos_of_nonpos_of_nonneg h5 hA) hden.le

/-- The sign of the flux through a seepage face without gravity. -/
theorem seepage_sign {Pref Dq w area : ℝ} {up dn : Side} {old : ℝ} (hD : 0 ≤ Dq) (hA : 0 ≤ area)
    (hw : 0 ≤ w ∧ w ≤ 1) (hu : Physical up) (hd : Physical dn) (hm : mobile up dn) :
    (dn.P ≤ up.P → 0 ≤ seepageResidual Pref Dq 0 w area up dn old) ∧
    (up.P ≤ dn.P → seepageResidual Pref Dq 0 w area up dn old ≤ 0) := by
  have hphi : dphi 0 w up dn = up.P - dn.P := by unfold dphi; ring
  by_cases hs : dphi 0 w up dn > 0.0 ∧ up.P - Pref < 1e-8
  · have : seepageResidual Pref Dq 0 w area up dn old = 0 := by
      unfold seepageResidual
      rw [if_pos hm]
      simp only [if_pos hs]
      norm_num
    rw [this]
    exact ⟨fun _ => le_rfl, fun _ => le_rfl⟩
  · have : seepageResidual Pref Dq 0 w area up dn old = residual Dq 0 w area up dn old := by
      unfold seepageResidual residual
      rw [if_pos hm, if_pos hm]
      simp only [if_neg hs]
    rw [this]
    exact residual_sign hD hA hw hu hd hm

theorem level (c : Ctx) (f : Face) (hg : c.gravity = ⟨0, 0, 0⟩) : (dists c f).1 = 0 := by
  simp [dists, calculateDistances, dot, hg]

/-- The flux through an open boundary face is that from some boundary value, and its sign is that of
the difference of the pressures. -/
theorem boundary_sign (c : Ctx) (hc : Conducting c) (wf : WellFormed c) (hg : c.gravity = ⟨0, 0, 0⟩)
    (i : Nat) (hi : i < c.numFaces) (hb : IsOpenBoundary c i)
    (hs : (boundaryFlux c (c.face i)).isSome = true) :
    ∃ b < c.numBnd,
      ((c.cells (c.face i).dn.toNat).P ≤ (c.bnds b).P → 0 ≤ (boundaryFlux c (c.face i)).getD 0) ∧
      ((c.bnds b).P ≤ (c.cells (c.face i).dn.toNat).P → (boundaryFlux c (c.face i)).getD 0 ≤ 0) := by
  obtain ⟨h1, h2, -⟩ := wf.boundary i hi hb
  have hdn : (c.face i).dn.toNat < c.numCells := by omega
  have hw := weight_mem c.gravity (c.face i).geom (hc.geom i hi)
  have hD := (faceDq_pos c (c.face i) (hc.geom i hi) hc.perm).le
  have hA := (hc.geom i hi).area
  have hm : ∀ b, mobile (c.bnds b) (c.cells (c.face i).dn.toNat) := fun b => Or.inr (hc.mobile _ hdn)
  have hne := hb.2.2
  unfold boundaryFlux at hs ⊢
  cases hbc : (c.face i).bc
  · simp only [hbc] at hs ⊢
    unfold richardsBCResidual bndAt at hs ⊢
    by_cases hr : 0 ≤ bndIndexResidual (c.face i).up ∧ bndIndexResidual (c.face i).up < c.numBnd
    · have hlt : (bndIndexResidual (c.face i).up).toNat < c.numBnd := by omega
      refine ⟨(bndIndexResidual (c.face i).up).toNat, hlt, ?_⟩
      rw [if_pos hr, level c _ hg]
      simp only [Option.map_some, Option.getD_some]
      exact residual_sign hD hA hw (hc.bnd _ hlt) (hc.cell _ hdn) (hm _)
    · rw [if_neg hr] at hs; simp at hs
  · exact absurd hbc hne
  · simp only [hbc] at hs ⊢
    unfold richardsSeepageBCResidual bndAt at hs ⊢
    by_cases hr : 0 ≤ bndIndex (c.face i).up ∧ bndIndex (c.face i).up < c.numBnd
    · have hlt : (bndIndex (c.face i).up).toNat < c.numBnd := by omega
      refine ⟨(bndIndex (c.face i).up).toNat, hlt, ?_⟩
      rw [if_pos hr, level c _ hg]
      simp only [Option.map_some, Option.getD_some]
      exact seepage_sign hD hA hw (hc.bnd _ hlt) (hc.cell _ hdn) (hm _)
    · rw [if_neg hr] at hs; simp at hs

theorem internal_sign (c : Ctx) (hc : Conducting c) (wf : WellFormed c) (hg : c.gravity = ⟨0, 0, 0⟩)
    (junk : Nat → ℝ) (i : Nat) (hi : i < c.numFaces) (hI : IsInternal c i) :
    ((c.cells (c.face i).dn.toNat).P ≤ (c.cells (c.face i).up.toNat).P →
      0 ≤ richardsResidual c (c.face i) (junk i)) ∧
    ((c.cells (c.face i).up.toNat).P ≤ (c.cells (c.face i).dn.toNat).P →
      richardsResidual c (c.face i) (junk i) ≤ 0) := by
  obtain ⟨h1, h2, h3, h4⟩ := wf.internal i hi hI
  unfold richardsResidual
  rw [level c _ hg]
  exact residual_sign (faceDq_pos c (c.face i) (hc.geom i hi) hc.perm).le (hc.geom i hi).area
    (weight_mem c.gravity (c.face i).geom (hc.geom i hi)) (hc.cell _ (by omega)) (hc.cell _ (by omega))
    (Or.inl (hc.mobile _ (by omega)))

/-- What flows out of a cell of highest pressure is not negative. -/
theorem outflow_of_highest (c : Ctx) (hc : Conducting c) (wf : WellFormed c)
    (hg : c.gravity = ⟨0, 0, 0⟩) (junk : Nat → ℝ)
    (hs : ∀ i < c.numFaces, IsOpenBoundary c i → (boundaryFlux c (c.face i)).isSome = true)
    (j : Nat) (hmax : ∀ k < c.numCells, (c.cells k).P ≤ (c.cells j).P)
    (hbnd : ∀ b < c.numBnd, (c.bnds b).P ≤ (c.cells j).P) :
    0 ≤ ∑ i ∈ range c.numFaces, internalTerm c junk i j +
      ∑ i ∈ range c.numFaces, boundaryTerm c i j := by
  refine add_nonneg (sum_nonneg fun i hi => ?_) (sum_nonneg fun i hi => ?_)
  · have hi := mem_range.1 hi
    unfold internalTerm
    dsimp only
    split_ifs with hI h1 h2 h2 <;> try simp
    · have := (internal_sign c hc wf hg junk i hi hI).1
        (by rw [← h1.2.2]; exact hmax _ (by have := wf.internal i hi hI; omega))
      simpa using this
    · have := (internal_sign c hc wf hg junk i hi hI).2
        (by rw [← h2.2.2]; exact hmax _ (by have := wf.internal i hi hI; omega))
      simpa using this
  · have hi := mem_range.1 hi
    unfold boundaryTerm
    dsimp only
    split_ifs with hB h1 <;> try exact le_rfl
    obtain ⟨b, hb, -, hneg⟩ := boundary_sign c hc wf hg i hi hB (hs i hi hB)
    have := hneg (by rw [← h1]; exact hbnd b hb)
    linarith

/-- What flows out of a cell of lowest pressure is not positive. -/
theorem outflow_of_lowest (c : Ctx) (hc : Conducting c) (wf : WellFormed c)
    (hg : c.gravity = ⟨0, 0, 0⟩) (junk : Nat → ℝ)
    (hs : ∀ i < c.numFaces, IsOpenBoundary c i → (boundaryFlux c (c.face i)).isSome = true)
    (j : Nat) (hmin : ∀ k < c.numCells, (c.cells j).P ≤ (c.cells k).P)
    (hbnd : ∀ b < c.numBnd, (c.cells j).P ≤ (c.bnds b).P) :
    ∑ i ∈ range c.numFaces, internalTerm c junk i j +
      ∑ i ∈ range c.numFaces, boundaryTerm c i j ≤ 0 := by
  refine add_nonpos (sum_nonpos fun i hi => ?_) (sum_nonpos fun i hi => ?_)
  · have hi := mem_range.1 hi
    unfold internalTerm
    dsimp only
    split_ifs with hI h1 h2 h2 <;> try simp
    · have := (internal_sign c hc wf hg junk i hi hI).2
        (by rw [← h1.2.2]; exact hmin _ (by have := wf.internal i hi hI; omega))
      simpa using this
    · have := (internal_sign c hc wf hg junk i hi hI).1
        (by rw [← h2.2.2]; exact hmin _ (by have := wf.internal i hi hI; omega))
      simpa using this
  · have hi := mem_range.1 hi
    unfold boundaryTerm
    dsimp only
    split_ifs with hB h1 <;> try exact le_rfl
    obtain ⟨b, hb, hpos, -⟩ := boundary_sign c hc wf hg i hi hB (hs i hi hB)
    have := hpos (by rw [← h1]; exact hbnd b hb)
    linarith

/-- C180, upper bound: in a solved step without gravity and without inflow from sources, no cell gets
a pressure above all pressures before the step and on the boundary. -/
theorem C180_highest (prev c : Ctx) (dt hi : ℝ) (h : Solved prev c dt) (hc : Conducting c)
    (hg : c.gravity = ⟨0, 0, 0⟩) (hsrc : ∀ j < c.numCells, c.source j ≤ 0)
    (hw : ∀ j < c.numCells, MoreWater prev c j)
    (hprev : ∀ j < c.numCells, (prev.cells j).P ≤ hi) (hbnd : ∀ b < c.numBnd, (c.bnds b).P ≤ hi) :
    ∀ j < c.numCells, (c.cells j).P ≤ hi := by
  by_contra hcon
  push Not at hcon
  obtain ⟨j0, hj0, h0⟩ := hcon
  obtain ⟨j, hj, hmax⟩ := exists_max_image (range c.numCells) (fun k => (c.cells k).P)
    ⟨j0, mem_range.2 hj0⟩
  have hj := mem_range.1 hj
  have hmax : ∀ k < c.numCells, (c.cells k).P ≤ (c.cells j).P := fun k hk => hmax k (mem_range.2 hk)
  have habove : hi < (c.cells j).P := lt_of_lt_of_le h0 (hmax j0 hj0)
  obtain ⟨junk, hs, hbal⟩ := balance h
  have hout := outflow_of_highest c hc h.wf hg junk hs j hmax
    (fun b hb => (hbnd b hb).trans habove.le)
  have hm : mass prev j < mass c j := hw j hj (lt_of_le_of_lt (hprev j hj) habove)
  have hm' : mass prev j/dt < mass c j/dt := div_lt_div_of_pos_right hm h.length
  have := hbal j hj
  have := hsrc j hj
  linarith

/-- C180, lower bound: without outflow to sources, no cell gets a pressure below all pressures before
the step and on the boundary. -/
theorem C180_lowest (prev c : Ctx) (dt lo : ℝ) (h : Solved prev c dt) (hc : Conducting c)
    (hg : c.gravity = ⟨0, 0, 0⟩) (hsrc : ∀ j < c.numCells, 0 ≤ c.source j)
    (hw : ∀ j < c.numCells, MoreWater c prev j)
    (hprev : ∀ j < c.numCells, lo ≤ (prev.cells j).P) (hbnd : ∀ b < c.numBnd, lo ≤ (c.bnds b).P) :
    ∀ j < c.numCells, lo ≤ (c.cells j).P := by
  by_contra hcon
  push Not at hcon
  obtain ⟨j0, hj0, h0⟩ := hcon
  obtain ⟨j, hj, hmin⟩ := exists_min_image (range c.numCells) (fun k => (c.cells k).P)
    ⟨j0, mem_range.2 hj0⟩
  have hj := mem_range.1 hj
  have hmin : ∀ k < c.numCells, (c.cells j).P ≤ (c.cells k).P := fun k hk => hmin k (mem_range.2 hk)
  have hbelow : (c.cells j).P < lo := lt_of_le_of_lt (hmin j0 hj0) h0
  obtain ⟨junk, hs, hbal⟩ := balance h
  have hout := outflow_of_lowest c hc h.wf hg junk hs j hmin
    (fun b hb => hbelow.le.trans (hbnd b hb))
  have hm : mass c j < mass prev j := hw j hj (lt_of_lt_of_le hbelow (hprev j hj))
  have hm' : mass c j/dt < mass prev j/dt := div_lt_div_of_pos_right hm h.length
  have := hbal j hj
  have := hsrc j hj
  linarith

/-- C180: with the exponential density law, the van Genuchten curve and the default reference pressure,
more pressure always means more water, so that both bounds hold for every step that is solved. -/
theorem C180_exponential_van_genuchten (a b : Ctx) (j : Nat) (m alpha Sr : ℝ) (hm0 : 0 < m)
    (hm1 : m < 1) (ha : 0 < alpha) (hSr : 0 ≤ Sr ∧ Sr < 1) (hpor : 0 < a.por j ∧ b.por j = a.por j)
    (hvol : 0 < a.vol j ∧ b.vol j = a.vol j)
    (hSa : (a.cells j).S = (Curves.vanGenuchten m alpha Sr (101325 - (a.cells j).P)).S)
    (hSb : (b.cells j).S = (Curves.vanGenuchten m alpha Sr (101325 - (b.cells j).P)).S)
    (hra : (a.cells j).rho = (Eos.densityExponential (a.cells j).P).v)
    (hrb : (b.cells j).rho = (Eos.densityExponential (b.cells j).P).v) : MoreWater a b j := by
  intro hP
  unfold mass
  rw [hpor.2, hvol.2]
  obtain ⟨-, hpos, -, hmono, -, -⟩ := Eos.Props.C20_positive_monotone_continuous
  have ra : 0 < (a.cells j).rho := by rw [hra]; exact hpos _
  have rab : (a.cells j).rho ≤ (b.cells j).rho := by rw [hra, hrb]; exact hmono hP.le
  have sa : 0 < (a.cells j).S := by
    rw [hSa]
    exact lt_of_le_of_lt hSr.1
      (Curves.Props.C12_bounds (Pc := 101325 - (a.cells j).P) hm0 ha hSr.2).1
  have sb : 0 < (b.cells j).S := by
    rw [hSb]
    exact lt_of_le_of_lt hSr.1
      (Curves.Props.C12_bounds (Pc := 101325 - (b.cells j).P) hm0 ha hSr.2).1
  have hk : (a.cells j).rho*(a.cells j).S < (b.cells j).rho*(b.cells j).S := by
    by_cases h1 : (b.cells j).P ≤ 101325
    · have hs : (a.cells j).S < (b.cells j).S := by
        rw [hSa, hSb]
        exact Curves.Props.C12_strictly_decreasing hm0 hm1 ha hSr.2 (by linarith) (by linarith)
      have := mul_lt_mul_of_pos_left hs ra
      have := mul_le_mul_of_nonneg_right rab sb.le
      linarith
    · push Not at h1
      have hSb1 : (b.cells j).S = 1 := by
        rw [hSb]
        exact (Curves.Props.C12_bounds (Pc := 101325 - (b.cells j).P) hm0 ha hSr.2).2.2.2 (by linarith)
      have hs : (a.cells j).S ≤ (b.cells j).S := by
        rw [hSb1, hSa]
        exact (Curves.Props.C12_bounds (Pc := 101325 - (a.cells j).P) hm0 ha hSr.2).2.1
      have hr : (a.cells j).rho < (b.cells j).rho := by
        rw [hra, hrb, Eos.Props.exp_ge h1.le]
        rcases lt_or_ge (a.cells j).P 101325 with h2 | h2
        · rw [Eos.Props.exp_lt h2]
          have : 1 < Real.exp (1e-8*((b.cells j).P - 101325)) := by
            rw [Real.one_lt_exp_iff]
            have : 0 < (b.cells j).P - 101325 := by linarith
            positivity
          simp only
          linarith
        · rw [Eos.Props.exp_ge h2]
          have : Real.exp (1e-8*((a.cells j).P - 101325)) < Real.exp (1e-8*((b.cells j).P - 101325)) := by
            rw [Real.exp_lt_exp]
            linarith
          simp only
          linarith
      have := mul_lt_mul_of_pos_right hr sb
      have := mul_le_mul_of_nonneg_left hs ra.le
      linarith
  have hv := mul_pos hpor.1 hvol.1
  have := mul_lt_mul_of_pos_right hk hv
  calc (a.cells j).rho*(a.por j*(a.cells j).S*a.vol j)
      = (a.cells j).rho*(a.cells j).S*(a.por j*a.vol j) := by ring
    _ < (b.cells j).rho*(b.cells j).S*(a.por j*a.vol j) := this
    _ = (b.cells j).rho*(a.por j*(b.cells j).S*a.vol j) := by ring

/-- With one density the average is that density. -/
theorem denAve_const {w rho : ℝ} {a b : Side} (ha : a.rho = rho) (hb : b.rho = rho) :
    denAve w a b = rho := by
  unfold denAve; rw [ha, hb]; norm_num; ring

namespace MonotoneWitness

/-- A cell at pressure `p`: a tenth of the pressure is the saturation. -/
def side (p : ℝ) : Side := ⟨p, p/10, 1, 1, 1, 0, 0, 0, 0⟩

/-- Two cells with one face between them, at pressures `p` and `q`. -/
def two (p q : ℝ) : Ctx := { pair with cells := fun i => if i = 0 then side p else side q }

theorem two_wf (p q : ℝ) : WellFormed (two p q) := by
  refine ⟨?_, ?_⟩
  · intro i _ _; simp [two, pair]
  · intro i _ h; exact absurd h.2.1 (by simp [two, pair])

theorem two_flux (p q old : ℝ) : richardsResidual (two p q) ((two p q).face 0) old = (p - q)/2 := by
  have hm : mobile ((two p q).cells 0) ((two p q).cells 1) := Or.inl (by norm_num [two, side])
  show residual (faceDq (two p q) ((two p q).face 0)) (dists (two p q) ((two p q).face 0)).1
    (dists (two p q) ((two p q).face 0)).2 1 ((two p q).cells 0) ((two p q).cells 1) old = _
  rw [residual_mobile hm]
  have hden : denAve (dists (two p q) ((two p q).face 0)).2 ((two p q).cells 0) ((two p q).cells 1) = 1 :=
    denAve_const (by simp [two, side]) (by simp [two, side])
  unfold dphi
  rw [hden]
  norm_num [two, side, pair, faceDq, dists, calculateDistances, upDownPerm, directional,
    faceCoefficient, dot]
  ring

/-- What is solved by pressures `p` and `q` after a step of length `dt`. -/
theorem two_solved (p q dt : ℝ) (hdt : 0 < dt) :
    Solved (two (p + 5*dt*(p - q)) (q - 5*dt*(p - q))) (two p q) dt := by
  refine ⟨two_wf p q, fun _ => rfl, fun _ => rfl, rfl, hdt, fun _ => 0, fun _ => 0, ?_⟩
  have hs : (boundaryLoop (two p q) (internalLoop (two p q) (fun _ => 0) fun _ => 0)).isSome = true :=
    (boundaryLoop_isSome _ _).2 (fun i _ _ h _ => absurd h (by simp [two, pair]))
  obtain ⟨R, hR⟩ := Option.isSome_iff_exists.1 hs
  refine ⟨_, by unfold snesFunction; rw [hR]; rfl, ?_⟩
  have hdt' := hdt.ne'
  intro j hj
  have hj : j = 0 ∨ j = 1 := by
    have : j < 2 := hj
    omega
  rcases hj with rfl | rfl
  · rw [cellLoop_apply, boundaryLoop_apply _ _ _ hR, internalLoop_apply,
      fill_mass _ (fun _ => rfl) _ _ _ (by simp [two, pair])]
    have e : internalTerm (two p q) (fun _ => 0) 0 0 = (p - q)/2 := by
      unfold internalTerm
      simp only [two_flux]; simp [two, pair]
    have e2 : boundaryTerm (two p q) 0 0 = 0 := by unfold boundaryTerm; simp [two, pair]
    simp only [show (two p q).numFaces = 1 from rfl, sum_range_one, e, e2]
    simp [two, pair, side, accumulation, mass]
    field_simp
    ring
  · rw [cellLoop_apply, boundaryLoop_apply _ _ _ hR, internalLoop_apply,
      fill_mass _ (fun _ => rfl) _ _ _ (by simp [two, pair])]
    have e : internalTerm (two p q) (fun _ => 0) 0 1 = -((p - q)/2) := by
      unfold internalTerm
      simp only [two_flux]; simp [two, pair]
    have e2 : boundaryTerm (two p q) 0 1 = 0 := by unfold boundaryTerm; simp [two, pair]
    simp only [show (two p q).numFaces = 1 from rfl, sum_range_one, e, e2]
    simp [two, pair, side, accumulation, mass]
    field_simp
    ring

theorem two_conducting (p q : ℝ) : Conducting (two p q) := by
  refine ⟨fun i _ => ⟨?_, ?_, ?_, ?_, ?_⟩, fun i => ⟨?_, ?_, ?_⟩, fun j _ => ?_, fun b hb => ?_,
    fun j _ => ?_⟩
  any_goals norm_num [two, pair]
  · by_cases h : j = 0 <;> simp only [h, if_true, if_false] <;>
      exact ⟨by norm_num [side], by norm_num [side], by norm_num [side]⟩
  · exact absurd hb (by simp [two, pair])
  · by_cases h : j = 0 <;> simp [h, side] <;> norm_num

theorem two_more (p q p' q' : ℝ) (j : Nat) : MoreWater (two p q) (two p' q') j := by
  unfold MoreWater
  intro h
  by_cases hj : j = 0
  · subst hj
    simp [two, side] at h
    simp [two, side, pair, mass]
    linarith
  · simp [two, side, hj] at h
    simp [two, side, pair, mass, hj]
    linarith

end MonotoneWitness

open MonotoneWitness in
/-- Non-vacuity of C180: a step of length 1/10 takes pressures 5/2 and 1/2 to 2 and 1. -/
example : Solved (two (5/2) (1/2)) (two 2 1) (1/10) ∧ Conducting (two 2 1) ∧
    (two 2 1).gravity = ⟨0, 0, 0⟩ ∧ (∀ j, (two 2 1).source j = 0) ∧
    (∀ j < 2, MoreWater (two (5/2) (1/2)) (two 2 1) j ∧ MoreWater (two 2 1) (two (5/2) (1/2)) j) ∧
    (∀ j < 2, 1/2 ≤ ((two (5/2) (1/2)).cells j).P ∧ ((two (5/2) (1/2)).cells j).P ≤ 5/2) := by
  refine ⟨?_, two_conducting 2 1, rfl, fun _ => rfl,
    fun j _ => ⟨two_more _ _ _ _ j, two_more _ _ _ _ j⟩, ?_⟩
  · have := two_solved 2 1 (1/10) (by norm_num)
    norm_num at this
    exact this
  · intro j _
    by_cases hj : j = 0 <;> simp [two, side, hj] <;> norm_num

/-- C180: the condition that more pressure means more water is needed.  With constant density in a
closed, saturated domain every uniform pressure solves a step from every other one. -/
theorem C180_incompressible_undetermined (p p' dt : ℝ) (hdt : 0 < dt) :
    ∃ prev c : Ctx, Solved prev c dt ∧ Conducting c ∧ c.gravity = ⟨0, 0, 0⟩ ∧
      (∀ j, c.source j = 0) ∧ c.numCells = 2 ∧ c.numBnd = 0 ∧
      (∀ j, (prev.cells j).P = p) ∧ ∀ j, (c.cells j).P = p' := by
  let st : ℝ → Ctx := fun x => { pair with cells := fun _ => ⟨x, 1, 1, 1, 1, 0, 0, 0, 0⟩ }
  have hflux : ∀ x old, richardsResidual (st x) ((st x).face 0) old = 0 := by
    intro x old
    have hm : mobile ((st x).cells 0) ((st x).cells 1) := Or.inl (by norm_num [st])
    show residual (faceDq (st x) ((st x).face 0)) (dists (st x) ((st x).face 0)).1
      (dists (st x) ((st x).face 0)).2 1 ((st x).cells 0) ((st x).cells 1) old = _
    rw [residual_mobile hm]
    have hg : (dists (st x) ((st x).face 0)).1 = 0 := level _ _ rfl
    have h0 : dphi (dists (st x) ((st x).face 0)).1 (dists (st x) ((st x).face 0)).2
        ((st x).cells 0) ((st x).cells 1) = 0 := by
      unfold dphi; rw [hg]; simp [st]
    rw [h0]; ring
  refine ⟨st p, st p', ⟨⟨?_, ?_⟩, fun _ => rfl, fun _ => rfl, rfl, hdt, fun _ => 0, fun _ => 0, ?_⟩,
    ⟨fun i _ => ⟨?_, ?_, ?_, ?_, ?_⟩, fun i => ⟨?_, ?_, ?_⟩, fun j _ => ⟨?_, ?_, ?_⟩, fun b hb => ?_,
      fun j _ => ?_⟩, rfl, fun _ => rfl, rfl, rfl, fun _ => rfl, fun _ => rfl⟩
  · intro i _ _; simp [st, pair]
  · intro i _ h; exact absurd h.2.1 (by simp [st, pair])
  · have hs : (boundaryLoop (st p') (internalLoop (st p') (fun _ => 0) fun _ => 0)).isSome = true :=
      (boundaryLoop_isSome _ _).2 (fun i _ _ h _ => absurd h (by simp [st, pair]))
    obtain ⟨R, hR⟩ := Option.isSome_iff_exists.1 hs
    refine ⟨_, by unfold snesFunction; rw [hR]; rfl, ?_⟩
    intro j hj
    rw [cellLoop_apply, boundaryLoop_apply _ _ _ hR, internalLoop_apply,
      fill_mass (st p) (fun _ => rfl) _ _ _ hj]
    have e : internalTerm (st p') (fun _ => 0) 0 j = 0 := by
      unfold internalTerm
      simp only [hflux]; simp
    have e2 : boundaryTerm (st p') 0 j = 0 := by unfold boundaryTerm; simp [st, pair]
    have hj' : j < (st p').numCells := hj
    simp only [show (st p').numFaces = 1 from rfl, sum_range_one, e, e2, hj', true_and]
    simp [st, pair, accumulation, mass]
  any_goals norm_num [st, pair]
  exact absurd hb (by simp [st, pair])

/-! ## C181 : incompressible water -/

/-- A product of an upwinded mobility and a driving force grows with the force and with the mobility
of the upper side, and falls with the mobility of the lower side. -/
theorem upwind_mono {u1 u2 l1 l2 d1 d2 : ℝ} (hu : 0 ≤ u2 ∧ u2 ≤ u1) (hl : 0 ≤ l1 ∧ l1 ≤ l2)
    (hd : d2 ≤ d1) :
    (if d2 ≥ 0.0 then u2 else l2)*d2 ≤ (if d1 ≥ 0.0 then u1 else l1)*d1 := by
  norm_num
  by_cases h2 : 0 ≤ d2
  · rw [if_pos h2, if_pos (h2.trans hd)]
    exact mul_le_mul hu.2 hd h2 (hu.1.trans hu.2)
  · rw [if_neg h2]
    push Not at h2
    by_cases h1 : 0 ≤ d1
    · rw [if_pos h1]
      have a : l2*d2 ≤ 0 := mul_nonpos_of_nonneg_of_nonpos (hl.1.trans hl.2) h2.le
      have b : 0 ≤ u1*d1 := mul_nonneg (hu.1.trans hu.2) h1
      linarith
    · rw [if_neg h1]
      push Not at h1
      nlinarith [mul_nonneg hl.1 (sub_nonneg.2 hd), mul_nonneg (sub_nonneg.2 hl.2) (neg_nonneg.2 h2.le)]

/-- Two pairs of sides: the upper pressure and mobility of the first are not lower, the lower ones not
higher. -/
structure Steeper (up1 dn1 up2 dn2 : Side) (rho vis visU : ℝ) : Prop where
  up : up2.P ≤ up1.P ∧ up2.Kr ≤ up1.Kr
  dn : dn1.P ≤ dn2.P ∧ dn1.Kr ≤ dn2.Kr
  density : up1.rho = rho ∧ dn1.rho = rho ∧ up2.rho = rho ∧ dn2.rho = rho
  viscosity : up1.vis = visU ∧ dn1.vis = vis ∧ up2.vis = visU ∧ dn2.vis = vis
  pos : 0 < rho ∧ 0 < vis ∧ 0 < visU ∧ 0 ≤ up2.Kr ∧ 0 ≤ dn1.Kr

theorem steeper_core {Dq area rho d1 d2 : ℝ} {up1 dn1 up2 dn2 : Side} {vis visU : ℝ}
    (hD : 0 ≤ Dq) (hA : 0 ≤ area) (h : Steeper up1 dn1 up2 dn2 rho vis visU) (hd : d2 ≤ d1) :
    Dq*(if d2 ≥ 0.0 then up2.Kr/up2.vis else dn2.Kr/dn2.vis)*d2*area*rho ≤
    Dq*(if d1 ≥ 0.0 then up1.Kr/up1.vis else dn1.Kr/dn1.vis)*d1*area*rho := by
  obtain ⟨hu, hdn, -, ⟨v1, v2, v3, v4⟩, hr, hv, hvU, k1, k2⟩ := h
  rw [v1, v2, v3, v4]
  have := upwind_mono (u1 := up1.Kr/visU) (u2 := up2.Kr/visU) (l1 := dn1.Kr/vis) (l2 := dn2.Kr/vis)
    ⟨div_nonneg k1 hvU.le, div_le_div_of_nonneg_right hu.2 hvU.le⟩
    ⟨div_nonneg k2 hv.le, div_le_div_of_nonneg_right hdn.2 hv.le⟩ hd
  have e : ∀ x d : ℝ, Dq*x*d*area*rho = (Dq*area*rho)*(x*d) := fun x d => by ring
  rw [e, e]
  exact mul_le_mul_of_nonneg_left this (mul_nonneg (mul_nonneg hD hA) hr.le)

theorem residual_mono {Dq dg w area rho vis visU : ℝ} {up1 dn1 up2 dn2 : Side} {old1 old2 : ℝ}
    (hD : 0 ≤ Dq) (hA : 0 ≤ area) (h : Steeper up1 dn1 up2 dn2 rho vis visU)
    (m1 : mobile up1 dn1) (m2 : mobile up2 dn2) :
    residual Dq dg w area up2 dn2 old2 ≤ residual Dq dg w area up1 dn1 old1 := by
  rw [residual_mobile m1, residual_mobile m2]
  obtain ⟨r1, r2, r3, r4⟩ := h.density
  rw [denAve_const (w := w) r1 r2, denAve_const (w := w) r3 r4]
  apply steeper_core hD hA h
  unfold dphi
  rw [denAve_const (w := w) r1 r2, denAve_const (w := w) r3 r4]
  linarith [h.up.1, h.dn.1]

theorem seepage_mono {Pref Dq dg w area rho vis visU : ℝ} {b dn1 dn2 : Side} {old1 old2 : ℝ}
    (hD : 0 ≤ Dq) (hA : 0 ≤ area) (h : Steeper b dn1 b dn2 rho vis visU)
    (m1 : mobile b dn1) (m2 : mobile b dn2) :
    seepageResidual Pref Dq dg w area b dn2 old2 ≤ seepageResidual Pref Dq dg w area b dn1 old1 := by
  obtain ⟨r1, r2, r3, r4⟩ := h.density
  have hd : dphi dg w b dn2 ≤ dphi dg w b dn1 := by
    unfold dphi
    rw [denAve_const (w := w) r1 r2, denAve_const (w := w) r3 r4]
    linarith [h.up.1, h.dn.1]
  unfold seepageResidual
  rw [if_pos m1, if_pos m2]
  dsimp only
  rw [denAve_const (w := w) r1 r2, denAve_const (w := w) r3 r4]
  apply steeper_core hD hA h
  norm_num
  by_cases hp : b.P - Pref < 1e-8
  · norm_num at hp
    simp only [hp, and_true]
    split_ifs <;> linarith
  · norm_num at hp
    have : ¬ (b.P - Pref < 1/100000000) := not_lt.2 hp
    simp only [this, and_false, if_false]
    exact hd

/-- Where the sides of a face belong to the set of the cells with more pressure in the first state. -/
def Higher (a b : Ctx) (j : Nat) : Prop := (b.cells j).P < (a.cells j).P

open Classical in
/-- The cells with more pressure in the first state. -/
def higher (a b : Ctx) : Finset Nat := (range a.numCells).filter (Higher a b)

theorem higher_mem {a b : Ctx} {j : Nat} (hj : j ∈ higher a b) : j < a.numCells ∧ Higher a b j := by
  classical
  rw [higher, mem_filter, mem_range] at hj
  exact hj

theorem mem_higher {a b : Ctx} {j : Nat} (hj : j < a.numCells) : j ∈ higher a b ↔ Higher a b j := by
  classical
  rw [higher, mem_filter, mem_range]; exact ⟨fun h => h.2, fun h => ⟨hj, h⟩⟩

open Classical in
theorem sum_single_on (s : Finset Nat) (k : Nat) (v : ℝ) :
    (∑ j ∈ s, if j = k then v else 0) = if k ∈ s then v else 0 := by
  rw [sum_ite_eq' s k]

open Classical in
theorem internal_on (c : Ctx) (wf : WellFormed c) (own : ∀ j, c.isLocal j = true) (junk : Nat → ℝ)
    (s : Finset Nat) (i : Nat) (hi : i < c.numFaces) :
    (∑ j ∈ s, internalTerm c junk i j) = if IsInternal c i then
      (if (c.face i).up.toNat ∈ s then richardsResidual c (c.face i) (junk i) else 0) +
      (if (c.face i).dn.toNat ∈ s then -richardsResidual c (c.face i) (junk i) else 0) else 0 := by
  by_cases h : IsInternal c i
  · obtain ⟨h1, h2, h3, h4⟩ := wf.internal i hi h
    rw [if_pos h]
    simp only [internalTerm]
    simp only [if_pos (show (c.face i).isLocal = true ∧ (c.face i).isInternal = true from h), h1, h3, own,
      true_and]
    rw [sum_add_distrib, sum_single_on, sum_single_on]
  · rw [if_neg h]
    apply sum_eq_zero
    intro j _
    simp only [internalTerm]
    rw [if_neg (show ¬ ((c.face i).isLocal = true ∧ (c.face i).isInternal = true) from h)]

open Classical in
theorem boundary_on (c : Ctx) (s : Finset Nat) (i : Nat) :
    (∑ j ∈ s, boundaryTerm c i j) = if IsOpenBoundary c i then
      (if (c.face i).dn.toNat ∈ s then -((boundaryFlux c (c.face i)).getD 0) else 0) else 0 := by
  by_cases h : IsOpenBoundary c i
  · rw [if_pos h]
    simp only [boundaryTerm]
    simp only [if_pos (show (c.face i).isLocal = true ∧ (c.face i).isInternal = false ∧
      (c.face i).bc ≠ .neumann from h)]
    rw [sum_single_on]
  · rw [if_neg h]
    apply sum_eq_zero
    intro j _
    simp only [boundaryTerm]
    rw [if_neg (show ¬ ((c.face i).isLocal = true ∧ (c.face i).isInternal = false ∧
      (c.face i).bc ≠ .neumann) from h)]

theorem comparable_fields {a b : Ctx} {rho vis : ℝ} (h : Comparable a b rho vis) :
    b.numCells = a.numCells ∧ b.numFaces = a.numFaces ∧ b.numBnd = a.numBnd ∧ b.face = a.face ∧
    b.K0 = a.K0 ∧ b.bnds = a.bnds ∧ b.gravity = a.gravity ∧ b.Pref = a.Pref := by
  have := h.same
  unfold SameModel at this
  refine ⟨?_, ?_, ?_, ?_, ?_, ?_, ?_, ?_⟩ <;> rw [this]

/-- The steeper of two internal faces carries the larger flux. -/
theorem internal_mono {a b : Ctx} {rho vis : ℝ} (h : Comparable a b rho vis) (wf : WellFormed a)
    (i : Nat) (hi : i < a.numFaces) (hI : IsInternal a i) (x y : ℝ)
    (hup : Higher a b (a.face i).up.toNat) (hdn : ¬ Higher a b (a.face i).dn.toNat) :
    richardsResidual b (a.face i) y ≤ richardsResidual a (a.face i) x := by
  obtain ⟨e1, e2, e3, e4, e5, e6, e7, e8⟩ := comparable_fields h
  obtain ⟨h1, h2, h3, h4⟩ := wf.internal i hi hI
  have hu : (a.face i).up.toNat < a.numCells := by omega
  have hd : (a.face i).dn.toNat < a.numCells := by omega
  have hDq : faceDq b (a.face i) = faceDq a (a.face i) := by simp only [faceDq, upDownPerm, e5]
  have hdist : dists b (a.face i) = dists a (a.face i) := by simp only [dists, e7]
  unfold richardsResidual
  rw [hDq, hdist]
  have hdn : (a.cells (a.face i).dn.toNat).P ≤ (b.cells (a.face i).dn.toNat).P := not_lt.1 hdn
  refine residual_mono (rho := rho) (vis := vis) (visU := vis)
    (faceDq_pos a (a.face i) (h.condA.geom i hi) h.condA.perm).le
    (h.condA.geom i hi).area ⟨⟨hup.le, ?_⟩, ⟨hdn, ?_⟩, ⟨?_, ?_, ?_, ?_⟩, ⟨?_, ?_, ?_, ?_⟩,
      h.pos.1, h.pos.2, h.pos.2, ?_, ?_⟩ (Or.inl (h.condA.mobile _ hu))
      (Or.inl (h.condB.mobile _ (by rw [e1]; exact hu)))
  · exact (h.ba _ (by rw [e1]; exact hu) hup.le).2
  · exact (h.ab _ hd hdn).2
  · exact h.incA.density _ hu
  · exact h.incA.density _ hd
  · exact h.incB.density _ (by rw [e1]; exact hu)
  · exact h.incB.density _ (by rw [e1]; exact hd)
  · exact h.incA.viscosity _ hu
  · exact h.incA.viscosity _ hd
  · exact h.incB.viscosity _ (by rw [e1]; exact hu)
  · exact h.incB.viscosity _ (by rw [e1]; exact hd)
  · exact (h.condB.cell _ (by rw [e1]; exact hu)).Kr
  · exact (h.condA.cell _ hd).Kr

/-- The other way round. -/
theorem internal_mono' {a b : Ctx} {rho vis : ℝ} (h : Comparable a b rho vis) (wf : WellFormed a)
    (i : Nat) (hi : i < a.numFaces) (hI : IsInternal a i) (x y : ℝ)
    (hup : ¬ Higher a b (a.face i).up.toNat) (hdn : Higher a b (a.face i).dn.toNat) :
    richardsResidual a (a.face i) x ≤ richardsResidual b (a.face i) y := by
  obtain ⟨e1, e2, e3, e4, e5, e6, e7, e8⟩ := comparable_fields h
  obtain ⟨h1, h2, h3, h4⟩ := wf.internal i hi hI
  have hu : (a.face i).up.toNat < a.numCells := by omega
  have hd : (a.face i).dn.toNat < a.numCells := by omega
  have hDq : faceDq b (a.face i) = faceDq a (a.face i) := by simp only [faceDq, upDownPerm, e5]
  have hdist : dists b (a.face i) = dists a (a.face i) := by simp only [dists, e7]
  unfold richardsResidual
  rw [hDq, hdist]
  have hup : (a.cells (a.face i).up.toNat).P ≤ (b.cells (a.face i).up.toNat).P := not_lt.1 hup
  refine residual_mono (rho := rho) (vis := vis) (visU := vis)
    (faceDq_pos a (a.face i) (h.condA.geom i hi) h.condA.perm).le
    (h.condA.geom i hi).area ⟨⟨hup, ?_⟩, ⟨hdn.le, ?_⟩, ⟨?_, ?_, ?_, ?_⟩, ⟨?_, ?_, ?_, ?_⟩,
      h.pos.1, h.pos.2, h.pos.2, ?_, ?_⟩ (Or.inl (h.condB.mobile _ (by rw [e1]; exact hu)))
      (Or.inl (h.condA.mobile _ hu))
  · exact (h.ab _ hu hup).2
  · exact (h.ba _ (by rw [e1]; exact hd) hdn.le).2
  · exact h.incB.density _ (by rw [e1]; exact hu)
  · exact h.incB.density _ (by rw [e1]; exact hd)
  · exact h.incA.density _ hu
  · exact h.incA.density _ hd
  · exact h.incB.viscosity _ (by rw [e1]; exact hu)
  · exact h.incB.viscosity _ (by rw [e1]; exact hd)
  · exact h.incA.viscosity _ hu
  · exact h.incA.viscosity _ hd
  · exact (h.condA.cell _ hu).Kr
  · exact (h.condB.cell _ (by rw [e1]; exact hd)).Kr

/-- A cell with more pressure takes less water from the boundary. -/
theorem boundary_mono {a b : Ctx} {rho vis : ℝ} (h : Comparable a b rho vis) (wf : WellFormed a)
    (i : Nat) (hi : i < a.numFaces) (hB : IsOpenBoundary a i)
    (hdn : Higher a b (a.face i).dn.toNat) (hs : (boundaryFlux a (a.face i)).isSome = true) :
    (boundaryFlux a (a.face i)).getD 0 ≤ (boundaryFlux b (a.face i)).getD 0 := by
  obtain ⟨e1, e2, e3, e4, e5, e6, e7, e8⟩ := comparable_fields h
  obtain ⟨h1, h2, -⟩ := wf.boundary i hi hB
  have hd : (a.face i).dn.toNat < a.numCells := by omega
  have hd' : (a.face i).dn.toNat < b.numCells := by rw [e1]; exact hd
  have hDq : faceDq b (a.face i) = faceDq a (a.face i) := by simp only [faceDq, upDownPerm, e5]
  have hdist : dists b (a.face i) = dists a (a.face i) := by simp only [dists, e7]
  have hD := (faceDq_pos a (a.face i) (h.condA.geom i hi) h.condA.perm).le
  have hA := (h.condA.geom i hi).area
  have hst : ∀ k < a.numBnd, Steeper (a.bnds k) (b.cells (a.face i).dn.toNat) (a.bnds k)
      (a.cells (a.face i).dn.toNat) rho vis (a.bnds k).vis := by
    intro k hk
    exact ⟨⟨le_rfl, le_rfl⟩, ⟨hdn.le, (h.ba _ hd' hdn.le).2⟩,
      ⟨h.incA.boundary k hk, h.incB.density _ hd', h.incA.boundary k hk, h.incA.density _ hd⟩,
      ⟨rfl, h.incB.viscosity _ hd', rfl, h.incA.viscosity _ hd⟩,
      h.pos.1, h.pos.2, (h.condA.bnd k hk).vis, (h.condA.bnd k hk).Kr, (h.condB.cell _ hd').Kr⟩
  have m1 : ∀ s, mobile s (a.cells (a.face i).dn.toNat) := fun s => Or.inr (h.condA.mobile _ hd)
  have m2 : ∀ s, mobile s (b.cells (a.face i).dn.toNat) := fun s => Or.inr (h.condB.mobile _ hd')
  unfold boundaryFlux at hs ⊢
  cases hbc : (a.face i).bc
  · simp only [hbc] at hs ⊢
    unfold richardsBCResidual bndAt at hs ⊢
    rw [hDq, hdist, e3, e6]
    by_cases hr : 0 ≤ bndIndexResidual (a.face i).up ∧ bndIndexResidual (a.face i).up < a.numBnd
    · rw [if_pos hr]
      simp only [Option.map_some, Option.getD_some]
      exact residual_mono hD hA (hst (bndIndexResidual (a.face i).up).toNat (by omega)) (m2 _) (m1 _)
    · rw [if_neg hr] at hs; simp at hs
  · exact absurd hbc hB.2.2
  · simp only [hbc] at hs ⊢
    unfold richardsSeepageBCResidual bndAt at hs ⊢
    rw [hDq, hdist, e3, e6, e8]
    by_cases hr : 0 ≤ bndIndex (a.face i).up ∧ bndIndex (a.face i).up < a.numBnd
    · rw [if_pos hr]
      simp only [Option.map_some, Option.getD_some]
      exact seepage_mono hD hA (hst (bndIndex (a.face i).up).toNat (by omega)) (m2 _) (m1 _)
    · rw [if_neg hr] at hs; simp at hs

/-- Summed over the cells with more pressure in the first state, the first state gains no more water
on the second than it had before the step and got from sources. -/
theorem gain {prevA a prevB b : Ctx} {dt rho vis : ℝ} (sa : Solved prevA a dt)
    (sb : Solved prevB b dt) (h : Comparable a b rho vis) :
    ∑ j ∈ higher a b, (mass a j - mass b j) ≤
      ∑ j ∈ higher a b, (mass prevA j - mass prevB j + dt*(a.source j - b.source j)) := by
  obtain ⟨e1, e2, e3, e4, e5, e6, e7, e8⟩ := comparable_fields h
  obtain ⟨ja, hsa, ba⟩ := balance sa
  obtain ⟨jb, hsb, bb⟩ := balance sb
  rw [e1, e2] at bb
  have hmem : ∀ j ∈ higher a b, j < a.numCells := by
    intro j hj; exact (higher_mem hj).1
  have tot : (∑ i ∈ range a.numFaces, ((∑ j ∈ higher a b, internalTerm a ja i j) -
        ∑ j ∈ higher a b, internalTerm b jb i j)) +
      (∑ i ∈ range a.numFaces, ((∑ j ∈ higher a b, boundaryTerm a i j) -
        ∑ j ∈ higher a b, boundaryTerm b i j)) +
      ∑ j ∈ higher a b, ((mass a j/dt - mass prevA j/dt - a.source j) -
        (mass b j/dt - mass prevB j/dt - b.source j)) = 0 := by
    simp only [sum_sub_distrib]
    rw [sum_comm (s := range a.numFaces) (t := higher a b) (f := fun i j => internalTerm a ja i j),
      sum_comm (s := range a.numFaces) (t := higher a b) (f := fun i j => internalTerm b jb i j),
      sum_comm (s := range a.numFaces) (t := higher a b) (f := fun i j => boundaryTerm a i j),
      sum_comm (s := range a.numFaces) (t := higher a b) (f := fun i j => boundaryTerm b i j)]
    have za : ∑ j ∈ higher a b, (∑ i ∈ range a.numFaces, internalTerm a ja i j +
      ∑ i ∈ range a.numFaces, boundaryTerm a i j +
      (mass a j/dt - mass prevA j/dt - a.source j)) = 0 :=
      sum_eq_zero fun j hj => ba j (hmem j hj)
    have zb : ∑ j ∈ higher a b, (∑ i ∈ range a.numFaces, internalTerm b jb i j +
      ∑ i ∈ range a.numFaces, boundaryTerm b i j +
      (mass b j/dt - mass prevB j/dt - b.source j)) = 0 :=
      sum_eq_zero fun j hj => bb j (hmem j hj)
    simp only [sum_add_distrib, sum_sub_distrib] at za zb
    linarith
  have hint : 0 ≤ ∑ i ∈ range a.numFaces, ((∑ j ∈ higher a b, internalTerm a ja i j) -
        ∑ j ∈ higher a b, internalTerm b jb i j) := by
    refine sum_nonneg fun i hi => ?_
    have hi := mem_range.1 hi
    rw [internal_on a sa.wf sa.own ja _ i hi, internal_on b sb.wf sb.own jb _ i (by rw [e2]; exact hi)]
    have hiff : IsInternal b i ↔ IsInternal a i := by unfold IsInternal; rw [e4]
    by_cases hI : IsInternal a i
    · rw [if_pos hI, if_pos (hiff.2 hI), e4]
      obtain ⟨h1, h2, h3, h4⟩ := sa.wf.internal i hi hI
      have iu := mem_higher (a := a) (b := b) (show (a.face i).up.toNat < a.numCells by omega)
      have id := mem_higher (a := a) (b := b) (show (a.face i).dn.toNat < a.numCells by omega)
      by_cases hu : (a.face i).up.toNat ∈ higher a b <;>
        by_cases hd : (a.face i).dn.toNat ∈ higher a b
      · rw [if_pos hu, if_pos hd, if_pos hu, if_pos hd]; linarith
      · rw [if_pos hu, if_neg hd, if_pos hu, if_neg hd]
        have := internal_mono h sa.wf i hi hI (ja i) (jb i) (iu.1 hu) (fun x => hd (id.2 x))
        linarith
      · rw [if_neg hu, if_pos hd, if_neg hu, if_pos hd]
        have := internal_mono' h sa.wf i hi hI (ja i) (jb i) (fun x => hu (iu.2 x)) (id.1 hd)
        linarith
      · rw [if_neg hu, if_neg hd, if_neg hu, if_neg hd]; linarith
    · rw [if_neg hI, if_neg (fun hh => hI (hiff.1 hh))]; linarith
  have hbnd : 0 ≤ ∑ i ∈ range a.numFaces, ((∑ j ∈ higher a b, boundaryTerm a i j) -
        ∑ j ∈ higher a b, boundaryTerm b i j) := by
    refine sum_nonneg fun i hi => ?_
    have hi := mem_range.1 hi
    rw [boundary_on, boundary_on]
    have hiff : IsOpenBoundary b i ↔ IsOpenBoundary a i := by unfold IsOpenBoundary; rw [e4]
    by_cases hB : IsOpenBoundary a i
    · rw [if_pos hB, if_pos (hiff.2 hB), e4]
      obtain ⟨h1, h2, -⟩ := sa.wf.boundary i hi hB
      have id := mem_higher (a := a) (b := b) (show (a.face i).dn.toNat < a.numCells by omega)
      by_cases hd : (a.face i).dn.toNat ∈ higher a b
      · rw [if_pos hd, if_pos hd]
        have := boundary_mono h sa.wf i hi hB (id.1 hd) (hsa i hi hB)
        linarith
      · rw [if_neg hd, if_neg hd]; linarith
    · rw [if_neg hB, if_neg (fun hh => hB (hiff.1 hh))]; linarith
  have hcell : ∑ j ∈ higher a b, ((mass a j/dt - mass prevA j/dt - a.source j) -
        (mass b j/dt - mass prevB j/dt - b.source j)) ≤ 0 := by linarith
  have hdt := sa.length
  have hmul := mul_nonpos_of_nonneg_of_nonpos hdt.le hcell
  rw [mul_sum] at hmul
  have hsub : ∑ j ∈ higher a b, ((mass a j - mass b j) -
      (mass prevA j - mass prevB j + dt*(a.source j - b.source j))) ≤ 0 := by
    refine le_of_eq_of_le (sum_congr rfl fun j _ => ?_) hmul
    field_simp
    ring
  rw [sum_sub_distrib] at hsub
  linarith

theorem comparable_symm {a b : Ctx} {rho vis : ℝ} (h : Comparable a b rho vis) :
    Comparable b a rho vis :=
  ⟨by
    have := h.same
    unfold SameModel at this ⊢
    rw [this], h.condB, h.condA, h.incB, h.incA, h.ba, h.ab, h.pos⟩

/-- C181, order: a run that starts a step with no more water in any cell, and gets no more from
sources, ends it with no more water in any cell. -/
theorem C181_ordered (prevA a prevB b : Ctx) (dt rho vis : ℝ) (sa : Solved prevA a dt)
    (sb : Solved prevB b dt) (h : Comparable a b rho vis)
    (hprev : ∀ j < a.numCells, mass prevA j ≤ mass prevB j)
    (hsrc : ∀ j < a.numCells, a.source j ≤ b.source j) :
    ∀ j < a.numCells, mass a j ≤ mass b j := by
  obtain ⟨e1, -⟩ := comparable_fields h
  have hmem : ∀ j ∈ higher a b, j < a.numCells ∧ Higher a b j := by
    intro j hj; exact higher_mem hj
  have hpos : ∀ j ∈ higher a b, 0 ≤ mass a j - mass b j := by
    intro j hj
    obtain ⟨h1, h2⟩ := hmem j hj
    linarith [(h.ba j (by rw [e1]; exact h1) h2.le).1]
  have hle : ∑ j ∈ higher a b, (mass a j - mass b j) ≤ 0 := by
    refine (gain sa sb h).trans (sum_nonpos fun j hj => ?_)
    obtain ⟨h1, -⟩ := hmem j hj
    have := mul_nonneg sa.length.le (sub_nonneg.2 (hsrc j h1))
    linarith [hprev j h1]
  intro j hj
  by_cases hH : Higher a b j
  · have hz := (sum_eq_zero_iff_of_nonneg hpos).1 (le_antisymm hle (sum_nonneg hpos)) j
      ((mem_higher hj).2 hH)
    linarith
  · exact (h.ab j hj (not_lt.1 hH)).1

/-- C181, stability: a step does not enlarge the difference between two runs with the same sources,
measured by the water that would have to be added or taken away. -/
theorem C181_contraction (prevA a prevB b : Ctx) (dt rho vis : ℝ) (sa : Solved prevA a dt)
    (sb : Solved prevB b dt) (h : Comparable a b rho vis)
    (hsrc : ∀ j < a.numCells, a.source j = b.source j) :
    ∑ j ∈ range a.numCells, |mass a j - mass b j| ≤
      ∑ j ∈ range a.numCells, |mass prevA j - mass prevB j| := by
  classical
  obtain ⟨e1, -⟩ := comparable_fields h
  have hsub : ∀ j ∈ higher a b, j < a.numCells ∧ Higher a b j := by
    intro j hj; exact higher_mem hj
  have hsub' : ∀ j ∈ higher b a, j < a.numCells ∧ Higher b a j := by
    intro j hj
    exact ⟨by have := (higher_mem hj).1; rwa [e1] at this, (higher_mem hj).2⟩
  have hd : Disjoint (higher a b) (higher b a) := by
    rw [Finset.disjoint_left]
    intro j h1 h2
    exact lt_asymm (hsub j h1).2 (hsub' j h2).2
  have hun : higher a b ∪ higher b a ⊆ range a.numCells := by
    intro j hj
    rcases mem_union.1 hj with hh | hh
    · exact mem_range.2 (hsub j hh).1
    · exact mem_range.2 (hsub' j hh).1
  have hrest : ∑ j ∈ range a.numCells, |mass a j - mass b j| =
      ∑ j ∈ higher a b ∪ higher b a, |mass a j - mass b j| := by
    symm
    refine sum_subset hun fun j hj hno => ?_
    have hj := mem_range.1 hj
    rw [mem_union, not_or] at hno
    have n1 : ¬ Higher a b j := fun hh => hno.1 ((mem_higher hj).2 hh)
    have n2 : ¬ Higher b a j := fun hh => hno.2 ((mem_higher (by rw [e1]; exact hj)).2 hh)
    have p1 := (h.ab j hj (not_lt.1 n1)).1
    have p2 := (h.ba j (by rw [e1]; exact hj) (not_lt.1 n2)).1
    rw [le_antisymm p1 p2, sub_self, abs_zero]
  have g1 : ∑ j ∈ higher a b, |mass a j - mass b j| ≤
      ∑ j ∈ higher a b, |mass prevA j - mass prevB j| := by
    have e : ∑ j ∈ higher a b, |mass a j - mass b j| = ∑ j ∈ higher a b, (mass a j - mass b j) := by
      refine sum_congr rfl fun j hj => abs_of_nonneg ?_
      obtain ⟨h1, h2⟩ := hsub j hj
      linarith [(h.ba j (by rw [e1]; exact h1) h2.le).1]
    rw [e]
    refine (gain sa sb h).trans (sum_le_sum fun j hj => ?_)
    rw [hsrc j (hsub j hj).1, sub_self, mul_zero, add_zero]
    exact le_abs_self _
  have g2 : ∑ j ∈ higher b a, |mass a j - mass b j| ≤
      ∑ j ∈ higher b a, |mass prevA j - mass prevB j| := by
    have e : ∑ j ∈ higher b a, |mass a j - mass b j| = ∑ j ∈ higher b a, (mass b j - mass a j) := by
      refine sum_congr rfl fun j hj => ?_
      obtain ⟨h1, h2⟩ := hsub' j hj
      rw [abs_sub_comm]
      exact abs_of_nonneg (by linarith [(h.ab j h1 h2.le).1])
    rw [e]
    refine (gain sb sa (comparable_symm h)).trans (sum_le_sum fun j hj => ?_)
    rw [hsrc j (hsub' j hj).1, sub_self, mul_zero, add_zero, abs_sub_comm]
    exact le_abs_self _
  rw [hrest, sum_union hd]
  refine (add_le_add g1 g2).trans ?_
  rw [← sum_union hd]
  exact sum_le_sum_of_subset_of_nonneg hun fun j _ _ => abs_nonneg _

/-- C181, uniqueness: two solutions of one step leave the same water in every cell. -/
theorem C181_unique (prev a b : Ctx) (dt rho vis : ℝ) (sa : Solved prev a dt)
    (sb : Solved prev b dt) (h : Comparable a b rho vis)
    (hsrc : ∀ j < a.numCells, a.source j = b.source j) :
    ∀ j < a.numCells, mass a j = mass b j := by
  intro j hj
  obtain ⟨e1, -⟩ := comparable_fields h
  refine le_antisymm (C181_ordered prev a prev b dt rho vis sa sb h (fun _ _ => le_rfl)
    (fun k hk => (hsrc k hk).le) j hj) ?_
  exact C181_ordered prev b prev a dt rho vis sb sa (comparable_symm h) (fun _ _ => le_rfl)
    (fun k hk => (hsrc k (by rwa [e1] at hk)).ge) j (by rw [e1]; exact hj)

open MonotoneWitness in
/-- Non-vacuity of C181: two runs on two cells; the second starts with more water in both. -/
example : Solved (two (5/2) (1/2)) (two 2 1) (1/10) ∧ Solved (two 3 1) (two (5/2) (3/2)) (1/10) ∧
    Comparable (two 2 1) (two (5/2) (3/2)) 1 1 ∧
    (∀ j < 2, mass (two (5/2) (1/2)) j ≤ mass (two 3 1) j) ∧
    ∀ j, (two 2 1).source j = (two (5/2) (3/2)).source j := by
  have mono : ∀ p q p' q' : ℝ, MonotoneCurves (two p q) (two p' q') := by
    intro p q p' q' j _ h
    by_cases hj : j = 0
    · subst hj
      simp [two, side] at h
      simp [two, side, pair, mass]
      linarith
    · simp [two, side, hj] at h
      simp [two, side, pair, mass, hj]
      linarith
  have inc : ∀ p q : ℝ, Incompressible (two p q) 1 1 := by
    intro p q
    refine ⟨fun j _ => ?_, fun j _ => ?_, fun b hb => absurd hb (by simp [two, pair])⟩ <;>
      by_cases hj : j = 0 <;> simp [two, side, hj]
  refine ⟨?_, ?_, ⟨rfl, two_conducting _ _, two_conducting _ _, inc _ _, inc _ _, mono _ _ _ _,
    mono _ _ _ _, one_pos, one_pos⟩, ?_, fun _ => rfl⟩
  · have := two_solved 2 1 (1/10) (by norm_num)
    norm_num at this
    exact this
  · have := two_solved (5/2) (3/2) (1/10) (by norm_num)
    norm_num at this
    exact this
  · intro j _
    by_cases hj : j = 0 <;> simp [two, side, pair, mass, hj] <;> norm_num

end

end TDy.Fvtpf.Props
