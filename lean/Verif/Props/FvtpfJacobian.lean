import Verif.Props.Fvtpf
import Verif.Props.Curves
import Verif.Props.Eos
import Mathlib.Analysis.Calculus.Deriv.Mul
import Mathlib.Analysis.Calculus.Deriv.Inv
import Mathlib.Analysis.Calculus.Deriv.Comp
import Mathlib.Analysis.Calculus.Deriv.Add

/-! # C41, C42, C45: the Jacobian of the two-point flux method -/

namespace TDy.Fvtpf.Props

open TDy.Fvtpf TDy.Fvtpf.Spec TDy.Fvtpf.Proofs TDy.Geo Finset Filter Topology

noncomputable section

/-! ## Ingredients -/

theorem lit0 : (0.0:ℝ) = 0 := by norm_num
theorem lit1 : (1.0:ℝ) = 1 := by norm_num

theorem mobility_hasDerivAt {s : ℝ → Side} {p : ℝ} (hs : Smooth s p) (hv : (s p).vis ≠ 0) :
    HasDerivAt (fun x => (s x).Kr/(s x).vis) (dukvr (s p)) p := by
  refine (hs.Kr.div hs.vis hv).congr_deriv ?_
  unfold dukvr
  rw [show (2.0:ℝ) = ((2:ℕ):ℝ) by norm_num, Real.rpow_natCast]
  field_simp

theorem flux_hasDerivAt {k phi den : ℝ → ℝ} {k' phi' den' p : ℝ} (Dq area : ℝ)
    (hk : HasDerivAt k k' p) (hphi : HasDerivAt phi phi' p) (hden : HasDerivAt den den' p) :
    HasDerivAt (fun x => Dq*k x*phi x*area*den x)
      (Dq*(k'*phi p + k p*phi')*area*den p + Dq*k p*phi p*area*den') p := by
  refine (((((hk.const_mul Dq).mul hphi).mul_const area).mul hden)).congr_deriv ?_
  simp only [Pi.mul_apply]
  ring

theorem sides_hasDerivAt (uw dg : ℝ) {s : ℝ → Side} {p : ℝ} (hs : Smooth s p) (d : Side) :
    HasDerivAt (fun x => uw*(s x).rho + (1.0 - uw)*d.rho) (uw*(s p).drho) p ∧
    HasDerivAt (fun x => (s x).P - d.P - (uw*(s x).rho + (1.0 - uw)*d.rho)*dg)
      (1.0 - uw*dg*(s p).drho) p ∧
    HasDerivAt (fun x => uw*d.rho + (1.0 - uw)*(s x).rho) ((1.0 - uw)*(s p).drho) p ∧
    HasDerivAt (fun x => d.P - (s x).P - (uw*d.rho + (1.0 - uw)*(s x).rho)*dg)
      (-1.0 - (1.0 - uw)*dg*(s p).drho) p := by
  have hP : HasDerivAt (fun x => (s x).P) 1 p := by
    have : (fun x => (s x).P) = fun x => x := funext hs.P
    rw [this]; exact hasDerivAt_id p
  have h1 : HasDerivAt (fun x => uw*(s x).rho + (1.0 - uw)*d.rho) (uw*(s p).drho) p :=
    (hs.rho.const_mul uw).add_const _
  have h2 : HasDerivAt (fun x => uw*d.rho + (1.0 - uw)*(s x).rho) ((1.0 - uw)*(s p).drho) p :=
    (hs.rho.const_mul (1.0 - uw)).const_add _
  refine ⟨h1, ?_, h2, ?_⟩
  · refine ((hP.sub_const d.P).sub (h1.mul_const dg)).congr_deriv ?_
    norm_num; ring
  · refine ((hP.const_sub d.P).sub (h2.mul_const dg)).congr_deriv ?_
    norm_num; ring

/-- Near `p`, the choices made for the up side stay what they are at `p`. -/
theorem upweight_near {s : ℝ → Side} {p : ℝ} (hs : Smooth s p) (w : ℝ) (d : Side)
    (hS : (s p).S ≠ 1e-8) :
    (∀ᶠ x in 𝓝 p, upweight w (s x) d = upweight w (s p) d) ∧
    (∀ᶠ x in 𝓝 p, upweight w d (s x) = upweight w d (s p)) := by
  have hc := hs.S.continuousAt
  have key : ∀ᶠ x in 𝓝 p, ((s x).S < 1e-8 ↔ (s p).S < 1e-8) := by
    rcases lt_or_gt_of_ne hS with h | h
    · filter_upwards [hc.eventually (gt_mem_nhds h)] with x hx
      exact ⟨fun _ => h, fun _ => hx⟩
    · filter_upwards [hc.eventually (lt_mem_nhds h)] with x hx
      exact ⟨fun h' => absurd h' (not_lt.2 (le_of_lt hx)), fun h' => absurd h' (not_lt.2 h.le)⟩
  constructor
  · filter_upwards [key] with x hx
    unfold upweight
    simp only [hx]
  · filter_upwards [key] with x hx
    unfold upweight
    simp only [hx]

theorem mobile_near {s : ℝ → Side} {p : ℝ} (hs : Smooth s p) (d : Side) :
    (mobile (s p) d → ∀ᶠ x in 𝓝 p, mobile (s x) d) ∧
    (mobile d (s p) → ∀ᶠ x in 𝓝 p, mobile d (s x)) := by
  have hc := hs.Kr.continuousAt
  constructor
  · rintro (h | h)
    · filter_upwards [hc.eventually (lt_mem_nhds h)] with x hx using Or.inl hx
    · exact Eventually.of_forall fun _ => Or.inr h
  · rintro (h | h)
    · exact Eventually.of_forall fun _ => Or.inl h
    · filter_upwards [hc.eventually (lt_mem_nhds h)] with x hx using Or.inr hx

/-! ## C41 : internal faces -/

/-- The first Jacobian entry is the derivative of the flux with respect to the up pressure,
wherever the flux is differentiable: away from a zero potential difference and from the dryness
threshold. -/
theorem C41_up {s : ℝ → Side} {p : ℝ} (hs : Smooth s p) (d : Side) (Dq dg w area : ℝ)
    (hv : (s p).vis ≠ 0) (hm : mobile (s p) d) (hphi : dphi dg w (s p) d ≠ 0)
    (hS : (s p).S ≠ 1e-8) (old : ℝ) (oldJ : ℝ × ℝ) :
    HasDerivAt (fun x => residual Dq dg w area (s x) d old)
      (jacobian Dq dg w area (s p) d oldJ).1 p := by
  set uw := upweight w (s p) d with huw
  obtain ⟨hden, hph, -, -⟩ := sides_hasDerivAt uw dg hs d
  have nearM := (mobile_near hs d).1 hm
  have nearW := (upweight_near hs w d hS).1
  rw [← huw] at nearW
  unfold jacobian
  rw [if_pos hm]
  rcases lt_or_gt_of_ne hphi with h | h
  · have hn : ¬ dphi dg w (s p) d ≥ 0.0 := by rw [lit0]; exact not_le.2 h
    have near : ∀ᶠ x in 𝓝 p, (s x).P - d.P - (uw*(s x).rho + (1.0 - uw)*d.rho)*dg < 0 :=
      hph.continuousAt.eventually (gt_mem_nhds h)
    have D := flux_hasDerivAt Dq area (hasDerivAt_const p (d.Kr/d.vis)) hph hden
    refine (D.congr_deriv ?_).congr_of_eventuallyEq ?_
    · simp only [if_neg hn]
      unfold dphi denAve
      rw [← huw, lit0]
    · filter_upwards [nearM, nearW, near] with x h1 h2 h3
      rw [residual_mobile h1]
      unfold dphi denAve
      rw [h2, if_neg (by rw [lit0]; exact not_le.2 h3)]
  · have hn : dphi dg w (s p) d ≥ 0.0 := by rw [lit0]; exact h.le
    have near : ∀ᶠ x in 𝓝 p, 0 < (s x).P - d.P - (uw*(s x).rho + (1.0 - uw)*d.rho)*dg :=
      hph.continuousAt.eventually (lt_mem_nhds h)
    have D := flux_hasDerivAt Dq area (mobility_hasDerivAt hs hv) hph hden
    refine (D.congr_deriv ?_).congr_of_eventuallyEq ?_
    · simp only [if_pos hn]
      unfold dphi denAve
      rw [← huw]
    · filter_upwards [nearM, nearW, near] with x h1 h2 h3
      rw [residual_mobile h1]
      unfold dphi denAve
      rw [h2, if_pos (by rw [lit0]; exact h3.le)]

/-- The second Jacobian entry is the derivative with respect to the down pressure. -/
theorem C41_dn {s : ℝ → Side} {p : ℝ} (hs : Smooth s p) (u : Side) (Dq dg w area : ℝ)
    (hv : (s p).vis ≠ 0) (hm : mobile u (s p)) (hphi : dphi dg w u (s p) ≠ 0)
    (hS : (s p).S ≠ 1e-8) (old : ℝ) (oldJ : ℝ × ℝ) :
    HasDerivAt (fun x => residual Dq dg w area u (s x) old)
      (jacobian Dq dg w area u (s p) oldJ).2 p := by
  set uw := upweight w u (s p) with huw
  obtain ⟨-, -, hden, hph⟩ := sides_hasDerivAt uw dg hs u
  have nearM := (mobile_near hs u).2 hm
  have nearW := (upweight_near hs w u hS).2
  rw [← huw] at nearW
  unfold jacobian
  rw [if_pos hm]
  rcases lt_or_gt_of_ne hphi with h | h
  · have hn : ¬ dphi dg w u (s p) ≥ 0.0 := by rw [lit0]; exact not_le.2 h
    have near : ∀ᶠ x in 𝓝 p, u.P - (s x).P - (uw*u.rho + (1.0 - uw)*(s x).rho)*dg < 0 :=
      hph.continuousAt.eventually (gt_mem_nhds h)
    have D := flux_hasDerivAt Dq area (mobility_hasDerivAt hs hv) hph hden
    refine (D.congr_deriv ?_).congr_of_eventuallyEq ?_
    · simp only [if_neg hn]
      unfold dphi denAve
      rw [← huw]
    · filter_upwards [nearM, nearW, near] with x h1 h2 h3
      rw [residual_mobile h1]
      unfold dphi denAve
      rw [h2, if_neg (by rw [lit0]; exact not_le.2 h3)]
  · have hn : dphi dg w u (s p) ≥ 0.0 := by rw [lit0]; exact h.le
    have near : ∀ᶠ x in 𝓝 p, 0 < u.P - (s x).P - (uw*u.rho + (1.0 - uw)*(s x).rho)*dg :=
      hph.continuousAt.eventually (lt_mem_nhds h)
    have D := flux_hasDerivAt Dq area (hasDerivAt_const p (u.Kr/u.vis)) hph hden
    refine (D.congr_deriv ?_).congr_of_eventuallyEq ?_
    · simp only [if_pos hn]
      unfold dphi denAve
      rw [← huw, lit0]
    · filter_upwards [nearM, nearW, near] with x h1 h2 h3
      rw [residual_mobile h1]
      unfold dphi denAve
      rw [h2, if_pos (by rw [lit0]; exact h3.le)]

/-! ## C41 : the state update provides the derivatives -/

/-- Updating a cell gives a state whose derivative fields are its derivatives. -/
theorem C41_update_smooth {Pref : ℝ} {l : Law} {p : ℝ} (h : SmoothLaw Pref l p) (old : Side) :
    Smooth (fun x => updateCell Pref l x old) p := by
  obtain ⟨hSr, hsat, hkr, ⟨dr, er, hr⟩, ⟨dv, ev, hv⟩⟩ := h
  have hne : (1 - l.Sr) ≠ 0 := by linarith
  have hback : ∀ x, Pref - (Pref - x) = x := fun x => by ring
  refine ⟨fun _ => rfl, hsat, ?_, ?_, ?_⟩
  · have hSe : HasDerivAt (fun P => ((l.sat (Pref - P)).S - l.Sr)/(1 - l.Sr))
        ((l.sat (Pref - p)).dS/(1 - l.Sr)) p := (hsat.sub_const _).div_const _
    have := HasDerivAt.comp p hkr hSe
    simp only [updateCell, lit1]
    refine HasDerivAt.congr_deriv this ?_
    ring
  · simp only [updateCell, hback, ev, Option.getD_some]; exact hv
  · simp only [updateCell, hback, er, Option.getD_some]; exact hr

/-- The library's standard choice: van Genuchten saturation, smoothed Mualem relative permeability,
exponential density, constant viscosity, at every pressure except the reference pressure of the
density law. -/
theorem C41_standard_laws {m alpha Sr x0 x1 x2 dx Pref p : ℝ} (hm0 : 0 < m) (hm1 : m < 1)
    (ha : 0 < alpha) (hSr1 : Sr < 1) (h0 : 0 < x1) (h1 : x1 < 1) (hx : x1 < x2)
    (hdx : dx ≠ 0) (hp : p ≠ 101325) :
    ∃ c, Curves.smoothingCoeffs m x0 x1 x2 dx = some c ∧
      SmoothLaw Pref
        { Sr := Sr, sat := Curves.vanGenuchten m alpha Sr, kr := Curves.mualem m x0 x1 dx c
          rho := Eos.densityExponential, vis := Eos.viscosityConstant } p := by
  obtain ⟨c, hc, -, -, -, -, hk⟩ := Curves.Props.C17_smooth_join (x0 := x0) hm0 h0 h1 hx hdx
  refine ⟨c, hc, ⟨hSr1, Curves.Props.C13_first_derivative hm0 hm1 ha p, ?_, ?_, ?_⟩⟩
  · apply hk
    have := (Curves.Props.C12_bounds (m := m) (alpha := alpha) (Sr := Sr) (Pc := Pref - p)
      hm0 ha hSr1).1
    exact div_pos (by linarith) (by linarith)
  · obtain ⟨d1, d2, e1, -, e3, -⟩ := Eos.Props.C20_exponential_derivatives p hp
    exact ⟨d1, e1, e3⟩
  · refine ⟨0, by norm_num [Eos.viscosityConstant], ?_⟩
    exact hasDerivAt_const p _

/-- Non-vacuity of C41: the default smoothing interval, and a face between two cells with linear
laws at which the derivative is not zero. -/
example : ∃ c, SmoothLaw 101325
    { Sr := 0.1, sat := Curves.vanGenuchten 0.5 1e-4 0.1, kr := Curves.mualem 0.5 0.995 0.99 0.005 c
      rho := Eos.densityExponential, vis := Eos.viscosityConstant } 90000 := by
  obtain ⟨c, -, h⟩ := C41_standard_laws (m := 0.5) (alpha := 1e-4) (Sr := 0.1) (x0 := 0.995)
    (x1 := 0.99) (x2 := 1) (dx := 0.005) (Pref := 101325) (p := 90000)
    (by norm_num) (by norm_num) (by norm_num) (by norm_num) (by norm_num) (by norm_num)
    (by norm_num) (by norm_num) (by norm_num)
  exact ⟨c, h⟩

/-- A side whose density grows linearly with pressure. -/
def linearSide (x : ℝ) : Side := ⟨x, 1, 1, 1, x, 0, 0, 0, 1⟩

theorem linearSide_smooth (p : ℝ) : Smooth linearSide p :=
  ⟨fun _ => rfl, hasDerivAt_const p _, by simpa [linearSide] using hasDerivAt_const p (1:ℝ),
    hasDerivAt_const p _, hasDerivAt_id p⟩

example : HasDerivAt (fun x => residual 1 0 (1/2) 1 (linearSide x) (linearSide 1) 0) 3 3 := by
  have hm : mobile (linearSide 3) (linearSide 1) := Or.inl (by norm_num [linearSide])
  have h := C41_up (linearSide_smooth 3) (linearSide 1) 1 0 (1/2) 1 (by norm_num [linearSide]) hm
    (by norm_num [dphi, denAve, upweight, linearSide]) (by norm_num [linearSide]) 0 (0, 0)
  refine h.congr_deriv ?_
  unfold jacobian
  rw [if_pos hm]
  norm_num [dphi, denAve, upweight, linearSide, dukvr]

/-! ## C42 : boundary faces -/

/-- With outflow, the Dirichlet Jacobian is the derivative of the flux, provided the boundary
takes the full weight of the density (which the geometry of boundary faces gives when the boundary
is not dry), or there is no gravity along the face, or the density does not depend on pressure. -/
theorem C42_outflow_partial {s : ℝ → Side} {p : ℝ} (hs : Smooth s p) (u : Side) (Dq dg w area : ℝ)
    (hv : (s p).vis ≠ 0) (hm : mobile u (s p)) (hphi : dphi dg w u (s p) < 0)
    (hS : (s p).S ≠ 1e-8) (old oldJ : ℝ)
    (hcond : upweight w u (s p) = 1 ∨ dg = 0 ∨ (s p).drho = 0) :
    HasDerivAt (fun x => residual Dq dg w area u (s x) old) (bcJacobian Dq dg w area u (s p) oldJ)
      p := by
  refine (C41_dn hs u Dq dg w area hv hm hphi.ne hS old (0,0)).congr_deriv ?_
  have hn : ¬ dphi dg w u (s p) ≥ 0.0 := by rw [lit0]; exact not_le.2 hphi
  unfold jacobian bcJacobian
  rw [if_pos hm, if_pos hm]
  simp only [if_neg hn, lit1]
  rcases hcond with h | h | h
  · rw [h]; ring
  · rw [h]; ring
  · rw [h]; ring

/-- The condition is needed: otherwise, with a mobile cell and a face that conducts, the entry is
not the derivative. -/
theorem C42_outflow_wrong {s : ℝ → Side} {p : ℝ} (hs : Smooth s p) (u : Side) (Dq dg w area : ℝ)
    (hv : (s p).vis ≠ 0) (hm : mobile u (s p)) (hphi : dphi dg w u (s p) < 0)
    (hS : (s p).S ≠ 1e-8) (old oldJ : ℝ)
    (hD : Dq ≠ 0) (hA : area ≠ 0) (hden : denAve w u (s p) ≠ 0) (hKr : (s p).Kr ≠ 0)
    (h1 : upweight w u (s p) ≠ 1) (h2 : dg ≠ 0) (h3 : (s p).drho ≠ 0) :
    ¬ HasDerivAt (fun x => residual Dq dg w area u (s x) old) (bcJacobian Dq dg w area u (s p) oldJ)
      p := by
  intro hc
  have he := hc.unique (C41_dn hs u Dq dg w area hv hm hphi.ne hS old (0,0))
  have hn : ¬ dphi dg w u (s p) ≥ 0.0 := by rw [lit0]; exact not_le.2 hphi
  unfold jacobian bcJacobian at he
  rw [if_pos hm, if_pos hm] at he
  simp only [if_neg hn, lit1] at he
  have h0 : Dq*((s p).Kr/(s p).vis)*area*denAve w u (s p)*
      ((1 - upweight w u (s p))*(1 - upweight w u (s p))*dg*(s p).drho) = 0 := by
    linarith
  have hk : (s p).Kr/(s p).vis ≠ 0 := div_ne_zero hKr hv
  have hw : 1 - upweight w u (s p) ≠ 0 := sub_ne_zero.2 (Ne.symm h1)
  exact (mul_ne_zero (mul_ne_zero (mul_ne_zero (mul_ne_zero hD hk) hA) hden)
    (mul_ne_zero (mul_ne_zero (mul_ne_zero hw hw) h2) h3)) h0

/-- With inflow the Dirichlet Jacobian is zero, which is never the derivative when the boundary is
wet and mobile: the derivative is negative. -/
theorem C42_inflow_wrong {s : ℝ → Side} {p : ℝ} (hs : Smooth s p) (u : Side) (Dq dg w area : ℝ)
    (hv : (s p).vis ≠ 0) (hm : mobile u (s p)) (hphi : 0 < dphi dg w u (s p))
    (hS : (s p).S ≠ 1e-8) (old oldJ : ℝ) (hD : 0 < Dq) (hA : 0 < area)
    (hu : 0 < u.Kr ∧ 0 < u.vis ∧ 0 < u.rho) (hw : upweight w u (s p) = 1) :
    bcJacobian Dq dg w area u (s p) oldJ = 0 ∧
    (∃ d < 0, HasDerivAt (fun x => residual Dq dg w area u (s x) old) d p) ∧
    ¬ HasDerivAt (fun x => residual Dq dg w area u (s x) old)
      (bcJacobian Dq dg w area u (s p) oldJ) p := by
  have hn : dphi dg w u (s p) ≥ 0.0 := by rw [lit0]; exact hphi.le
  have hz : bcJacobian Dq dg w area u (s p) oldJ = 0 := by
    unfold bcJacobian
    rw [if_pos hm]
    simp only [if_pos hn]; simp only [lit0, lit1]; ring
  have hd := C41_dn hs u Dq dg w area hv hm hphi.ne' hS old (0,0)
  have hneg : (jacobian Dq dg w area u (s p) (0,0)).2 < 0 := by
    unfold jacobian
    rw [if_pos hm]
    simp only [if_pos hn]
    simp only [lit0, lit1, denAve, hw]
    have : 0 < u.Kr/u.vis := div_pos hu.1 hu.2.1
    have := mul_pos (mul_pos (mul_pos hD this) hA) hu.2.2
    norm_num
    nlinarith
  refine ⟨hz, ⟨_, hneg, hd⟩, ?_⟩
  rw [hz]
  intro h0
  exact hneg.ne (hd.unique h0)

/-- The seepage Jacobian is the derivative of the seepage flux, under the same conditions, for
inflow as well as for outflow. -/
theorem C42_seepage_partial {s : ℝ → Side} {p : ℝ} (hs : Smooth s p) (u : Side)
    (Pref Dq dg w area : ℝ)
    (hv : (s p).vis ≠ 0) (hm : mobile u (s p)) (hphi : dphi dg w u (s p) ≠ 0)
    (hS : (s p).S ≠ 1e-8) (old oldJ : ℝ)
    (hcond : upweight w u (s p) = 1 ∨ dg = 0 ∨ (s p).drho = 0) :
    HasDerivAt (fun x => seepageResidual Pref Dq dg w area u (s x) old)
      (seepageJacobian Pref Dq dg w area u (s p) oldJ) p := by
  have hlit := lit0
  obtain ⟨-, -, -, hph⟩ := sides_hasDerivAt (upweight w u (s p)) dg hs u
  have nearM := (mobile_near hs u).2 hm
  have nearW := (upweight_near hs w u hS).2
  have cont : ∀ᶠ x in 𝓝 p, dphi dg w u (s x) =
      u.P - (s x).P - (upweight w u (s p)*u.rho + (1.0 - upweight w u (s p))*(s x).rho)*dg := by
    filter_upwards [nearW] with x hx
    unfold dphi denAve
    rw [hx]
  by_cases hshut : dphi dg w u (s p) ≥ 0.0 ∧ u.P - Pref < 1e-8
  · have hz : seepageJacobian Pref Dq dg w area u (s p) oldJ = 0 := by
      unfold seepageJacobian
      rw [if_pos hm]
      simp only [if_pos hshut]; simp only [lit0, lit1]; ring
    rw [hz]
    have hpos : 0 < dphi dg w u (s p) := lt_of_le_of_ne (by rw [← hlit]; exact hshut.1) hphi.symm
    have near : ∀ᶠ x in 𝓝 p, 0 < u.P - (s x).P -
        (upweight w u (s p)*u.rho + (1.0 - upweight w u (s p))*(s x).rho)*dg :=
      hph.continuousAt.eventually (lt_mem_nhds hpos)
    refine (hasDerivAt_const p (0:ℝ)).congr_of_eventuallyEq ?_
    filter_upwards [nearM, cont, near] with x h1 h2 h3
    unfold seepageResidual
    rw [if_pos h1]
    have hx : dphi dg w u (s x) > 0.0 ∧ u.P - Pref < 1e-8 := by
      rw [h2, lit0]; exact ⟨h3, hshut.2⟩
    simp only [if_pos hx]; simp only [lit0, lit1]; ring
  · have hJ : seepageJacobian Pref Dq dg w area u (s p) oldJ =
        (jacobian Dq dg w area u (s p) (0,0)).2 := by
      unfold seepageJacobian jacobian
      rw [if_pos hm, if_pos hm]
      simp only [if_neg hshut, lit1]
      rcases hcond with h | h | h
      · rw [h]; ring
      · rw [h]; ring
      · rw [h]; ring
    rw [hJ]
    refine (C41_dn hs u Dq dg w area hv hm hphi hS old (0,0)).congr_of_eventuallyEq ?_
    by_cases hP : u.P - Pref < 1e-8
    · have hneg : dphi dg w u (s p) < 0 := by
        by_contra h
        exact hshut ⟨by rw [lit0]; exact not_lt.1 h, hP⟩
      have near : ∀ᶠ x in 𝓝 p, u.P - (s x).P -
          (upweight w u (s p)*u.rho + (1.0 - upweight w u (s p))*(s x).rho)*dg < 0 :=
        hph.continuousAt.eventually (gt_mem_nhds hneg)
      filter_upwards [cont, near] with x h2 h3
      exact C40_unmodified Pref Dq dg w area u (s x) old (Or.inr (by rw [h2]; exact h3.le))
    · exact Eventually.of_forall fun x =>
        C40_unmodified Pref Dq dg w area u (s x) old (Or.inl (by linarith))

/-- The geometry of boundary faces (the boundary at distance 0 from the face) gives the boundary
the full weight when it is not dry, so the conditions above hold. -/
theorem C42_boundary_weight (c : Ctx) (f : Face) (u d : Side) (h0 : f.geom.dUp = 0)
    (h1 : f.geom.dDn ≠ 0) (hwet : 1e-8 ≤ u.S) : upweight (dists c f).2 u d = 1 := by
  unfold upweight dists
  rw [weight_eq _ _ (by rw [h0, zero_add]; exact h1), h0, zero_add, div_self h1,
    if_neg (not_lt.2 hwet), lit1]
  split <;> rfl

/-- Non-vacuity of C42: inflow from a boundary at pressure 3 into a cell at pressure 1. -/
example : bcJacobian 1 0 1 1 (linearSide 3) (linearSide 1) 0 = 0 ∧
    ¬ HasDerivAt (fun x => residual 1 0 1 1 (linearSide 3) (linearSide x) 0)
      (bcJacobian 1 0 1 1 (linearSide 3) (linearSide 1) 0) 1 := by
  have h := C42_inflow_wrong (linearSide_smooth 1) (linearSide 3) 1 0 1 1
    (by norm_num [linearSide]) (Or.inl (by norm_num [linearSide]))
    (by norm_num [dphi, denAve, upweight, linearSide]) (by norm_num [linearSide]) 0 0
    one_pos one_pos (by norm_num [linearSide]) (by norm_num [upweight, linearSide])
  exact ⟨h.1, h.2.2⟩

/-! ## C45 : accumulation -/

/-- The accumulation is mass over time step; its Jacobian entry is its derivative with respect to
the pressure of the cell. -/
theorem C45_fvtpf_accumulation (c : Ctx) (s : Nat → ℝ → Side) (U : Nat → ℝ) (dtime : ℝ) (i : Nat)
    (hs : Smooth (s i) (U i)) :
    accumulation (ctxAt c s U) dtime i = mass (ctxAt c s U) i/dtime ∧
    HasDerivAt (fun x => accumulation (ctxAt c s (Function.update U i x)) dtime i)
      (jacobianAccumulation (ctxAt c s U) dtime i) (U i) := by
  constructor
  · unfold accumulation mass; ring
  · have e : (fun x => accumulation (ctxAt c s (Function.update U i x)) dtime i) =
        fun x => (s i x).rho*c.por i*(s i x).S*c.vol i/dtime := by
      funext x; simp [accumulation, ctxAt]
    rw [e]
    refine ((((hs.rho.mul_const (c.por i)).mul hs.S).mul_const (c.vol i)).div_const
      dtime).congr_deriv ?_
    simp only [jacobianAccumulation, ctxAt, lit0]
    ring

/-! ## C41 : the whole matrix -/

theorem internal_flux_hasDerivAt (c : Ctx) (s : Nat → ℝ → Side) (U : Nat → ℝ) (f : Face)
    (old : ℝ) (oldJ : ℝ × ℝ) (b : Nat)
    (hs : ∀ j, Smooth (s j) (U j)) (hv : ∀ j, (s j (U j)).vis ≠ 0)
    (hne : f.up.toNat ≠ f.dn.toNat)
    (hm : mobile (s f.up.toNat (U f.up.toNat)) (s f.dn.toNat (U f.dn.toNat)))
    (hphi : dphi (dists c f).1 (dists c f).2 (s f.up.toNat (U f.up.toNat))
      (s f.dn.toNat (U f.dn.toNat)) ≠ 0)
    (hSu : (s f.up.toNat (U f.up.toNat)).S ≠ 1e-8) (hSd : (s f.dn.toNat (U f.dn.toNat)).S ≠ 1e-8) :
    HasDerivAt (fun x => richardsResidual (ctxAt c s (Function.update U b x)) f old)
      ((if b = f.up.toNat then (richardsJacobian (ctxAt c s U) f oldJ).1 else 0) +
       (if b = f.dn.toNat then (richardsJacobian (ctxAt c s U) f oldJ).2 else 0)) (U b) := by
  have hr : ∀ x, richardsResidual (ctxAt c s (Function.update U b x)) f old =
      residual (faceDq c f) (dists c f).1 (dists c f).2 f.geom.area
        (s f.up.toNat (Function.update U b x f.up.toNat))
        (s f.dn.toNat (Function.update U b x f.dn.toNat)) old := fun x => rfl
  have hj : richardsJacobian (ctxAt c s U) f oldJ =
      jacobian (faceDq c f) (dists c f).1 (dists c f).2 f.geom.area
        (s f.up.toNat (U f.up.toNat)) (s f.dn.toNat (U f.dn.toNat)) oldJ := rfl
  simp only [hr, hj]
  by_cases hb : b = f.up.toNat
  · have hb' : b ≠ f.dn.toNat := hb ▸ hne
    rw [if_pos hb, if_neg hb', add_zero]
    simp only [Function.update_of_ne hb'.symm]
    rw [← hb]
    simp only [Function.update_self]
    rw [← hb] at hm hphi hSu
    exact C41_up (hs b) _ _ _ _ _ (hv b) hm hphi hSu old oldJ
  · by_cases hb' : b = f.dn.toNat
    · rw [if_neg hb, if_pos hb', zero_add]
      simp only [Function.update_of_ne (Ne.symm hb)]
      rw [← hb']
      simp only [Function.update_self]
      rw [← hb'] at hm hphi hSd
      exact C41_dn (hs b) _ _ _ _ _ (hv b) hm hphi hSd old oldJ
    · rw [if_neg hb, if_neg hb', add_zero]
      simp only [Function.update_of_ne (Ne.symm hb), Function.update_of_ne (Ne.symm hb')]
      exact hasDerivAt_const _ _

/-- On a mesh whose boundary faces are closed, or seepage faces with a wet boundary, the matrix
assembled by the library is the Jacobian of the residual it assembles: entry `(a, b)` is the
derivative of residual `a` with respect to pressure `b`.  The conditions exclude the points where
the residual has a kink (zero potential difference), the dryness threshold, and immobile faces
(whose flux is undefined, C43). -/
theorem C41_matrix (c : Ctx) (s : Nat → ℝ → Side) (U : Nat → ℝ) (dtime : ℝ)
    (accumPrev junk junkB : Nat → ℝ) (junkJ : Nat → ℝ × ℝ)
    (hs : ∀ j, Smooth (s j) (U j)) (hv : ∀ j, (s j (U j)).vis ≠ 0)
    (hint : ∀ i < c.numFaces, IsInternal c i →
      (c.face i).up.toNat ≠ (c.face i).dn.toNat ∧
      mobile (s (c.face i).up.toNat (U (c.face i).up.toNat))
        (s (c.face i).dn.toNat (U (c.face i).dn.toNat)) ∧
      dphi (dists c (c.face i)).1 (dists c (c.face i)).2
        (s (c.face i).up.toNat (U (c.face i).up.toNat))
        (s (c.face i).dn.toNat (U (c.face i).dn.toNat)) ≠ 0 ∧
      (s (c.face i).up.toNat (U (c.face i).up.toNat)).S ≠ 1e-8 ∧
      (s (c.face i).dn.toNat (U (c.face i).dn.toNat)).S ≠ 1e-8)
    (hbnd : ∀ i < c.numFaces, IsOpenBoundary c i → (c.face i).bc = .seepage ∧
      0 ≤ (c.face i).dn ∧ c.isLocal (c.face i).dn.toNat = true ∧
      (c.face i).geom.dUp = 0 ∧ (c.face i).geom.dDn ≠ 0 ∧
      ∃ k : Nat, k < c.numBnd ∧ (c.face i).up = -((k:ℤ) + 1) ∧ 1e-8 ≤ (c.bnds k).S ∧
        mobile (c.bnds k) (s (c.face i).dn.toNat (U (c.face i).dn.toNat)) ∧
        dphi (dists c (c.face i)).1 (dists c (c.face i)).2 (c.bnds k)
          (s (c.face i).dn.toNat (U (c.face i).dn.toNat)) ≠ 0 ∧
        (s (c.face i).dn.toNat (U (c.face i).dn.toNat)).S ≠ 1e-8)
    (B : Nat → Nat → ℝ) (hB : snesJacobian (ctxAt c s U) dtime junkJ junkB = some B)
    (b : Nat) (R : ℝ → Nat → ℝ)
    (hR : ∀ x, snesFunction (ctxAt c s (Function.update U b x)) dtime accumPrev junk = some (R x))
    (a : Nat) :
    HasDerivAt (fun x => R x a) (B a b) (U b) := by
  have eR : (fun x => R x a) = fun x => _ := funext fun x => snesFunction_apply _ _ _ _ _ (hR x) a
  rw [eR, snesJacobian_apply _ _ _ _ _ hB a b]
  refine HasDerivAt.add (HasDerivAt.add ?_ ?_) ?_
  · show HasDerivAt (fun x => ∑ i ∈ range c.numFaces,
        internalTerm (ctxAt c s (Function.update U b x)) junk i a)
      (∑ i ∈ range c.numFaces, jacInternalTerm (ctxAt c s U) junkJ i a b) (U b)
    refine HasDerivAt.fun_sum fun i hi => ?_
    have hi := mem_range.1 hi
    simp only [internalTerm, jacInternalTerm]
    show HasDerivAt (fun x => if (c.face i).isLocal = true ∧ (c.face i).isInternal = true then
      (if 0 ≤ (c.face i).up ∧ c.isLocal (c.face i).up.toNat = true ∧ a = (c.face i).up.toNat
        then richardsResidual (ctxAt c s (Function.update U b x)) (c.face i) (junk i) else 0) +
      (if 0 ≤ (c.face i).dn ∧ c.isLocal (c.face i).dn.toNat = true ∧ a = (c.face i).dn.toNat
        then -richardsResidual (ctxAt c s (Function.update U b x)) (c.face i) (junk i) else 0)
      else 0)
      (if (c.face i).isLocal = true ∧ (c.face i).isInternal = true then
        (if 0 ≤ (c.face i).up ∧ c.isLocal (c.face i).up.toNat = true ∧ a = (c.face i).up.toNat then
          (if b = (c.face i).up.toNat
            then (richardsJacobian (ctxAt c s U) (c.face i) (junkJ i)).1 else 0) +
          (if b = (c.face i).dn.toNat
            then (richardsJacobian (ctxAt c s U) (c.face i) (junkJ i)).2 else 0) else 0) +
        (if 0 ≤ (c.face i).dn ∧ c.isLocal (c.face i).dn.toNat = true ∧ a = (c.face i).dn.toNat then
          (if b = (c.face i).dn.toNat
            then -(richardsJacobian (ctxAt c s U) (c.face i) (junkJ i)).2 else 0) +
          (if b = (c.face i).up.toNat
            then -(richardsJacobian (ctxAt c s U) (c.face i) (junkJ i)).1 else 0) else 0)
      else 0) (U b)
    by_cases h : (c.face i).isLocal = true ∧ (c.face i).isInternal = true
    · obtain ⟨h1, h2, h3, h4, h5⟩ := hint i hi h
      have D := internal_flux_hasDerivAt c s U (c.face i) (junk i) (junkJ i) b hs hv h1 h2 h3 h4 h5
      simp only [if_pos h]
      refine HasDerivAt.add ?_ ?_
      · by_cases hu : 0 ≤ (c.face i).up ∧ c.isLocal (c.face i).up.toNat = true ∧
          a = (c.face i).up.toNat
        · simp only [if_pos hu]; exact D
        · simp only [if_neg hu]; exact hasDerivAt_const _ _
      · by_cases hu : 0 ≤ (c.face i).dn ∧ c.isLocal (c.face i).dn.toNat = true ∧
          a = (c.face i).dn.toNat
        · simp only [if_pos hu]
          refine D.neg.congr_deriv ?_
          split_ifs <;> ring
        · simp only [if_neg hu]; exact hasDerivAt_const _ _
    · simp only [if_neg h]; exact hasDerivAt_const _ _
  · show HasDerivAt (fun x => ∑ i ∈ range c.numFaces,
        boundaryTerm (ctxAt c s (Function.update U b x)) i a)
      (∑ i ∈ range c.numFaces, jacBoundaryTerm (ctxAt c s U) junkB i a b) (U b)
    refine HasDerivAt.fun_sum fun i hi => ?_
    have hi := mem_range.1 hi
    simp only [boundaryTerm, jacBoundaryTerm]
    show HasDerivAt (fun x => if (c.face i).isLocal = true ∧ (c.face i).isInternal = false ∧
        (c.face i).bc ≠ .neumann then
        (if a = (c.face i).dn.toNat
          then -((boundaryFlux (ctxAt c s (Function.update U b x)) (c.face i)).getD 0) else 0)
        else 0)
      (if (c.face i).isLocal = true ∧ (c.face i).isInternal = false ∧ (c.face i).bc ≠ .neumann then
        (if 0 ≤ (c.face i).dn ∧ c.isLocal (c.face i).dn.toNat = true ∧
            a = (c.face i).dn.toNat ∧ b = (c.face i).dn.toNat
          then -((boundaryJac (ctxAt c s U) (c.face i) (junkB i)).getD 0) else 0)
        else 0) (U b)
    by_cases h : (c.face i).isLocal = true ∧ (c.face i).isInternal = false ∧
        (c.face i).bc ≠ .neumann
    · obtain ⟨h1, h2, h3, h4, h5, k, hk, hid, hwet, hm, hphi, hS⟩ := hbnd i hi h
      simp only [if_pos h]
      have own := fun (U' : Nat → ℝ) => C44_own_entry_partial (ctxAt c s U') (c.face i) k hid hk
      have eF : ∀ x, (boundaryFlux (ctxAt c s (Function.update U b x)) (c.face i)).getD 0 =
          seepageResidual c.Pref (faceDq c (c.face i)) (dists c (c.face i)).1
            (dists c (c.face i)).2 (c.face i).geom.area (c.bnds k)
            (s (c.face i).dn.toNat (Function.update U b x (c.face i).dn.toNat)) 0.0 := by
        intro x
        unfold boundaryFlux
        rw [h1]
        simp only
        rw [(own _ _).1]; rfl
      have eJ : (boundaryJac (ctxAt c s U) (c.face i) (junkB i)).getD 0 =
          seepageJacobian c.Pref (faceDq c (c.face i)) (dists c (c.face i)).1
            (dists c (c.face i)).2 (c.face i).geom.area (c.bnds k)
            (s (c.face i).dn.toNat (U (c.face i).dn.toNat)) (junkB i) := by
        unfold boundaryJac
        rw [h1]
        simp only
        rw [(own _ _).2.1]; rfl
      simp only [eF, eJ]
      by_cases ha : a = (c.face i).dn.toNat
      · by_cases hb : b = (c.face i).dn.toNat
        · rw [if_pos ⟨h2, h3, ha, hb⟩]
          simp only [if_pos ha]
          rw [← hb] at hm hphi hS ⊢
          simp only [Function.update_self]
          exact (C42_seepage_partial (hs b) _ _ _ _ _ _ (hv b) hm hphi hS 0.0 (junkB i)
            (Or.inl (C42_boundary_weight c (c.face i) _ _ h4 h5 hwet))).neg
        · rw [if_neg (fun h => hb h.2.2.2)]
          simp only [Function.update_of_ne (Ne.symm hb)]
          exact hasDerivAt_const _ _
      · rw [if_neg (fun h => ha h.2.2.1)]
        simp only [if_neg ha]
        exact hasDerivAt_const _ _
    · simp only [if_neg h]; exact hasDerivAt_const _ _
  · show HasDerivAt (fun x => if a < c.numCells ∧ c.isLocal a = true then
        accumulation (ctxAt c s (Function.update U b x)) dtime a - accumPrev a - c.source a else 0)
      (if a = b ∧ a < c.numCells ∧ c.isLocal a = true
        then jacobianAccumulation (ctxAt c s U) dtime a else 0) (U b)
    by_cases h : a < c.numCells ∧ c.isLocal a = true
    · simp only [if_pos h]
      by_cases hab : a = b
      · subst hab
        rw [if_pos ⟨rfl, h⟩]
        exact (((C45_fvtpf_accumulation c s U dtime a (hs a)).2).sub_const _).sub_const _
      · rw [if_neg (fun h => hab h.1)]
        have : ∀ x, accumulation (ctxAt c s (Function.update U b x)) dtime a =
            accumulation (ctxAt c s U) dtime a := by
          intro x; simp [accumulation, ctxAt, Function.update_of_ne hab]
        simp only [this]
        exact hasDerivAt_const _ _
    · simp only [if_neg h, if_neg (fun h' : a = b ∧ _ => h h'.2)]
      exact hasDerivAt_const _ _

/-- Non-vacuity of the matrix theorem: two cells with linear laws at pressures 3 and 1, one
internal face; the library's matrix exists and is the derivative for every entry. -/
def linearPair : Ctx := { pair with cells := fun _ => linearSide 0 }

def linearState : Nat → ℝ := fun j => if j = 0 then 3 else 1

example : ∃ B, snesJacobian (ctxAt linearPair (fun _ => linearSide) linearState) 1
      (fun _ => (0, 0)) (fun _ => 0) = some B ∧
    ∀ (b : Nat) (R : ℝ → Nat → ℝ), (∀ x, snesFunction
      (ctxAt linearPair (fun _ => linearSide) (Function.update linearState b x)) 1
      (fun _ => 0) (fun _ => 0) = some (R x)) →
    ∀ a, HasDerivAt (fun x => R x a) (B a b) (linearState b) := by
  have hB : jacBoundaryLoop (ctxAt linearPair (fun _ => linearSide) linearState) (fun _ => 0)
      (jacInternalLoop (ctxAt linearPair (fun _ => linearSide) linearState) (fun _ => (0, 0))
        (fun _ _ => 0)) = some (jacInternalLoop (ctxAt linearPair (fun _ => linearSide) linearState)
          (fun _ => (0, 0)) (fun _ _ => 0)) := by
    simp [jacBoundaryLoop, forN, ctxAt, linearPair, pair]
  refine ⟨_, by unfold snesJacobian; rw [hB]; rfl, ?_⟩
  intro b R hR a
  refine C41_matrix linearPair (fun _ => linearSide) linearState 1 (fun _ => 0) (fun _ => 0)
    (fun _ => 0) (fun _ => (0, 0)) (fun j => linearSide_smooth _)
    (fun j => by norm_num [linearSide]) ?_ ?_ _ ?_ b R hR a
  · intro i _ _
    have e : linearPair.face i = ⟨0, 1, true, true, .neumann, ⟨1, 1, ⟨1, 0, 0⟩, 1⟩⟩ := rfl
    rw [e]
    refine ⟨by simp, Or.inl (by norm_num [linearSide]), ?_, by norm_num [linearSide],
      by norm_num [linearSide]⟩
    norm_num [dphi, denAve, upweight, linearSide, linearState, dists, calculateDistances,
      linearPair, pair, dot]
  · intro i _ h; exact absurd h.2.1 (by simp [linearPair, pair])
  · unfold snesJacobian; rw [hB]; rfl

end

end TDy.Fvtpf.Props
