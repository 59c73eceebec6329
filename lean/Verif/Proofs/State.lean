import Verif.Spec.State
import Verif.Props.Curves
import Verif.Props.Eos
import Mathlib.Tactic.Ring
import Mathlib.Tactic.FieldSimp

/-! # Lemmas about the state updates -/

namespace TDy.State.Proofs

open TDy.Curves TDy.Eos TDy.State TDy.State.Spec

noncomputable section

theorem one_lit : (1.0 : ℝ) = 1 := by norm_num

/-- The parameters of a cell. -/
theorem vgParams_apply (o : Options) (nc c : Nat) (h : c < nc) :
    vgParams o nc (2*c) = o.m ∧ vgParams o nc (2*c + 1) = o.alpha := by
  unfold vgParams
  induction nc with
  | zero => omega
  | succ n ih =>
    simp only [forN]
    by_cases e : c = n
    · subst e; simp [wr]
    · simp only [wr]
      rw [if_neg (by omega), if_neg (by omega), if_neg (by omega), if_neg (by omega)]
      exact ih (by omega)

/-- The parameters of a cell. -/
theorem mualemParams_apply (o : Options) (k : Fin 4 → ℝ) (nc c : Nat) (h : c < nc) :
    mualemParams o k nc (9*c) = o.m ∧ mualemParams o k nc (9*c + 1) = o.x0 ∧
    mualemParams o k nc (9*c + 2) = o.x1 ∧ mualemParams o k nc (9*c + 4) = o.dx ∧
    ∀ l : Fin 4, mualemParams o k nc (9*c + 5 + l) = k l := by
  unfold mualemParams
  induction nc with
  | zero => omega
  | succ n ih =>
    simp only [forN]
    by_cases e : c = n
    · subst e
      refine ⟨?_, ?_, ?_, ?_, ?_⟩
      · simp [wr]
      · simp [wr]
      · simp [wr]
      · simp [wr]
      · intro l
        fin_cases l <;> simp [wr]
    · obtain ⟨a0, a1, a2, a4, ak⟩ := ih (by omega)
      refine ⟨?_, ?_, ?_, ?_, fun l => ?_⟩
      all_goals simp only [wr]
      · repeat rw [if_neg (by omega)]
        exact a0
      · repeat rw [if_neg (by omega)]
        exact a1
      · repeat rw [if_neg (by omega)]
        exact a2
      · repeat rw [if_neg (by omega)]
        exact a4
      · have := l.2
        repeat rw [if_neg (by omega)]
        exact ak l

/-- The tables of an object in use. -/
theorem reached_tables {o : Options} {nc : Nat} {cc : CC} (hr : Reached o nc cc) :
    cc.sat.t0.num = 0 ∧ cc.kr.t0.num = 0 ∧ cc.sat.t1.num = nc ∧ cc.kr.t1.num = nc ∧
    (∀ i, cc.sat.t1.points i = i) ∧ (∀ i, cc.kr.t1.points i = i) ∧ cc.sat.t1.params = vgParams o nc ∧
    (0 < nc → ∃ k, smoothingCoeffs o.m o.x0 o.x1 o.x2 o.dx = some k ∧
      cc.kr.t1.params = mualemParams o k nc) := by
  induction hr with
  | @setup cc h =>
    unfold initCurves at h
    dsimp only at h
    split at h
    · rename_i h0
      injection h with h; subst h
      exact ⟨rfl, rfl, rfl, rfl, fun _ => rfl, fun _ => rfl, rfl, fun h => by omega⟩
    · split at h
      · exact absurd h (by simp)
      · rename_i k hk
        injection h with h; subst h
        exact ⟨rfl, rfl, rfl, rfl, fun _ => rfl, fun _ => rfl, rfl, fun _ => ⟨k, hk, rfl⟩⟩
  | @eval cc hr ih =>
    have e : ∀ s : Model2, (withMaps s).t0 = s.t0 ∧ (withMaps s).t1 = s.t1 := by
      intro s; unfold withMaps; split <;> exact ⟨rfl, rfl⟩
    simp only [(e _).1, (e _).2]
    exact ih

/-- The van Genuchten function is the formula. -/
theorem vanGenuchten_S (m alpha Sr Pc : ℝ) :
    (vanGenuchten m alpha Sr Pc).S = vgSaturation m alpha Sr Pc := by
  unfold vanGenuchten vgSaturation
  split
  · rfl
  · simp only [one_lit]
    rw [mul_comm Pc alpha]; ring

/-- Whole-array saturation of an object in use. -/
theorem saturation_apply {o : Options} {nc : Nat} {cc : CC} (hr : Reached o nc cc) (Sr Pc : Nat → ℝ)
    (out : Nat → Sat) (c : Nat) (hc : c < nc) :
    saturationCompute cc.sat Sr Pc out c = vanGenuchten o.m o.alpha (Sr c) (Pc c) := by
  obtain ⟨h0, -, h1, -, hp, -, hq, -⟩ := reached_tables hr
  unfold saturationCompute
  simp only [h0, h1, hp]
  rw [forN_fill, if_pos hc]
  unfold evalVG
  rw [hq, (vgParams_apply o nc c hc).1, (vgParams_apply o nc c hc).2]

/-- Whole-array relative permeability of an object in use. -/
theorem relPerm_apply {o : Options} {nc : Nat} {cc : CC} (hr : Reached o nc cc) (Se : Nat → ℝ)
    (out : Nat → Kr) (k : Fin 4 → ℝ) (hk : smoothingCoeffs o.m o.x0 o.x1 o.x2 o.dx = some k)
    (c : Nat) (hc : c < nc) :
    relPermCompute cc.kr Se out c = mualem o.m o.x0 o.x1 o.dx k (Se c) := by
  obtain ⟨-, h0, -, h1, -, -, -, hq⟩ := reached_tables hr
  obtain ⟨k', hk', hq⟩ := hq (by omega)
  have : k' = k := by rw [hk] at hk'; exact (Option.some.inj hk').symm
  subst this
  unfold relPermCompute
  simp only [h0, h1]
  rw [forN_fill, if_pos hc]
  unfold evalMualem
  obtain ⟨a0, a1, a2, a4, ak⟩ := mualemParams_apply o k' nc c hc
  rw [hq, a0, a1, a2, a4]
  congr 1
  funext l
  exact ak l

/-- The Mualem function the library builds is a smoothed Mualem curve. -/
theorem mualem_smoothed {o : Options} (hs : Sound o) :
    ∃ k, smoothingCoeffs o.m o.x0 o.x1 o.x2 o.dx = some k ∧
      SmoothedMualem o (fun Se => (mualem o.m o.x0 o.x1 o.dx k Se).k)
        (fun Se => (mualem o.m o.x0 o.x1 o.dx k Se).dk) := by
  obtain ⟨k, hk, -, -, t1, t2, hd⟩ := Curves.Props.C17_smooth_join (x0 := o.x0) hs.m0 hs.x1pos
    hs.x1lt hs.x12 hs.dx
  refine ⟨k, hk, ⟨?_, ?_, hd, t1, t2⟩⟩
  · intro Se h
    have h1 : ¬ (1.0 : ℝ) ≤ Se := by
      have := hs.x1lt; rw [one_lit]; linarith
    simp only [mualem, if_neg (not_lt.2 h), mualemUnsmoothed, if_neg h1]
  · have hdx := hs.dx
    refine ⟨k 0 - k 1*o.x0/o.dx + k 2*o.x0^2/o.dx^2 - k 3*o.x0^3/o.dx^3,
      k 1/o.dx - 2*k 2*o.x0/o.dx^2 + 3*k 3*o.x0^2/o.dx^3, k 2/o.dx^2 - 3*k 3*o.x0/o.dx^3,
      k 3/o.dx^3, ?_⟩
    intro Se h
    simp only [mualem, if_pos h, cubicEvaluate]
    field_simp
    ring

/-! ## The loop over the cells -/

/-- What the loop leaves in cell `c`, relative to the state `st` it starts from. -/
structure Done (mode : Mode) (x : Ctx) (P second : Nat → ℝ) (st : St) (c : Nat) (r : St) : Prop where
  kr : r.kr c = ⟨(st.kr c).k, (st.kr c).dk*(1.0/(1.0 - x.Sr c))⟩
  K : ∀ j < x.dim*x.dim, r.K (c*(x.dim*x.dim) + j) = x.K0 (c*(x.dim*x.dim) + j)*(st.kr c).k
  water : mode ≠ .wy → WaterAt x (P c) x.Tref (r.water c)
  salt : mode = .salinity → (r.water c).mnacl = saltFraction (second c) (x.muSaline c)
  noSalt : mode ≠ .salinity → mode ≠ .fvtpf → (r.water c).mnacl = (st.water c).mnacl
  fresh : mode = .fvtpf → (r.water c).mnacl = 0
  heat : mode = .th → (r.water c).u = (r.water c).h - P c/(r.water c).rho ∧ (r.water c).h = 1.8890 ∧
    ∀ j < x.dim*x.dim, r.kappa (c*(x.dim*x.dim) + j) = x.kappa0 (c*(x.dim*x.dim) + j)

/-- The laws chosen are known to the library. -/
def Known (mode : Mode) (x : Ctx) : Prop :=
  (∀ P T S, ∃ r, waterDensity x.density P T S = some r) ∧
  (∀ P T S, ∃ r, waterViscosity x.viscosity P T S = some r) ∧
  (mode = .th → x.enthalpyConstant = true)

theorem exponential_law (p : ℝ) :
    (densityExponential p).v = 997.16*Real.exp (1e-8*(max p 101325 - 101325)) := by
  rcases lt_or_ge p 101325 with h | h
  · rw [Eos.Props.exp_lt h, max_eq_right h.le]; simp
  · rw [Eos.Props.exp_ge h, max_eq_left h]

/-- What the evaluations write is the water of the laws. -/
theorem waterAt_of {x : Ctx} {P T : ℝ} {w : Water} {r v : Out} {a b c d : ℝ}
    (hr : waterDensity x.density P T w.mnacl = some r)
    (hv : waterViscosity x.viscosity P T w.mnacl = some v) (e1 : w.rho = r.v)
    (e2 : w.drho = r.dv.getD a) (e3 : w.d2rho = r.d2v.getD b) (e4 : w.vis = v.v)
    (e5 : w.dvis = v.dv.getD c) (e6 : w.d2vis = v.d2v.getD d) : WaterAt x P T w := by
  constructor
  · rw [e1]
    cases hx : x.density <;> rw [hx] at hr <;> simp only [waterDensity, Option.some.injEq,
      reduceCtorEq] at hr <;> subst hr
    · simp [densityLaw, densityConstant]; norm_num
    · simp only [densityLaw, exponential_law]
    · rfl
  · rw [e4]
    cases hx : x.viscosity <;> rw [hx] at hv <;> simp only [waterViscosity, Option.some.injEq,
      reduceCtorEq] at hv <;> subst hv
    · rfl
    · rfl
  · intro h1 h2
    rw [e2, e3]
    cases hx : x.density <;> rw [hx] at hr h1 <;> simp only [waterDensity, Option.some.injEq,
      reduceCtorEq] at hr <;> subst hr
    · obtain ⟨d1, d2, k1, k2, k3, k4⟩ := Eos.Props.C20_constant_derivatives P
      rw [k1, k2]
      have e : (fun p => (densityLaw .constant p T w.mnacl).getD 0) = fun p => (densityConstant p).v := by
        funext p; simp [densityLaw, densityConstant]; norm_num
      rw [e]; exact ⟨k3, k4⟩
    · obtain ⟨d1, d2, k1, k2, k3, k4⟩ := Eos.Props.C20_exponential_derivatives P h2
      rw [k1, k2]
      have e : (fun p => (densityLaw .exponential p T w.mnacl).getD 0)
          = fun p => (densityExponential p).v := by
        funext p; rw [exponential_law]; rfl
      rw [e]; exact ⟨k3, k4⟩
    · exact absurd rfl h1
  · intro h1
    rw [e5, e6]
    cases hx : x.viscosity <;> rw [hx] at hv h1 <;> simp only [waterViscosity, Option.some.injEq,
      reduceCtorEq] at hv <;> subst hv
    · simp [viscosityConstant]; norm_num
    · exact absurd rfl h1

/-- One block of an array is filled, the rest is kept. -/
theorem block_fill (d c : Nat) (v : Nat → ℝ) (a : Nat → ℝ) :
    (∀ j < d, forN d (fun j a => wr a (c*d + j) (v (c*d + j))) a (c*d + j) = v (c*d + j)) ∧
    (∀ c' j, c' ≠ c → j < d → forN d (fun j a => wr a (c*d + j) (v (c*d + j))) a (c'*d + j)
      = a (c'*d + j)) := by
  constructor
  · intro j hj
    exact forN_scatter d (fun j => c*d + j) (fun j => v (c*d + j)) a
      (fun i j _ _ h => by simpa using h) j hj
  · intro c' j hc hj
    apply forN_scatter_other d (fun j => c*d + j) (fun j => v (c*d + j)) a
    intro i hi h
    apply hc
    have h1 : (c*d + i)/d = c := by
      rw [Nat.mul_comm, Nat.mul_add_div (by omega), Nat.div_eq_of_lt hi]; rfl
    have h2 : (c'*d + j)/d = c' := by
      rw [Nat.mul_comm, Nat.mul_add_div (by omega), Nat.div_eq_of_lt hj]; rfl
    rw [h] at h1
    omega

/-- One cell: it is done, and the others are not touched. -/
theorem cell_done (mode : Mode) (x : Ctx) (hk : Known mode x) (P second : Nat → ℝ) (c : Nat) (st : St) :
    ∃ r, cellUpdate mode x c (P c) (second c) st = .ok r ∧ Done mode x P second st c r ∧
      r.sat = st.sat ∧ r.pVec = st.pVec ∧ r.tVec = st.tVec ∧ r.psiVec = st.psiVec ∧
      ∀ c', c' ≠ c → r.kr c' = st.kr c' ∧ r.water c' = st.water c' ∧
        (∀ j < x.dim*x.dim, r.K (c'*(x.dim*x.dim) + j) = st.K (c'*(x.dim*x.dim) + j)) ∧
        (∀ j < x.dim*x.dim, r.kappa (c'*(x.dim*x.dim) + j) = st.kappa (c'*(x.dim*x.dim) + j)) := by
  obtain ⟨kd, kv, kh⟩ := hk
  have hkr : (chainRule x c st).kr c = ⟨(st.kr c).k, (st.kr c).dk*(1.0/(1.0 - x.Sr c))⟩ := by
    simp [chainRule]
  have hkro : ∀ c', c' ≠ c → (chainRule x c st).kr c' = st.kr c' := by
    intro c' h; simp [chainRule, wr, h]
  have eK : (chainRule x c st).K = forN (x.dim*x.dim) (fun j K => wr K (c*(x.dim*x.dim) + j)
      ((fun k => x.K0 k*(st.kr c).k) (c*(x.dim*x.dim) + j))) st.K := by
    simp [chainRule]
  have hK : ∀ j < x.dim*x.dim, (chainRule x c st).K (c*(x.dim*x.dim) + j)
      = x.K0 (c*(x.dim*x.dim) + j)*(st.kr c).k := by
    rw [eK]; exact (block_fill _ c (fun k => x.K0 k*(st.kr c).k) st.K).1
  have hKo : ∀ c', c' ≠ c → ∀ j < x.dim*x.dim, (chainRule x c st).K (c'*(x.dim*x.dim) + j)
      = st.K (c'*(x.dim*x.dim) + j) := by
    rw [eK]
    intro c' h j hj
    exact (block_fill _ c (fun k => x.K0 k*(st.kr c).k) st.K).2 c' j h hj
  have hw : (chainRule x c st).water = st.water := rfl
  cases mode with
  | wy => exact ⟨_, rfl, ⟨hkr, hK, fun h => absurd rfl h, fun h => by simp at h, fun _ _ => rfl,
      fun h => by simp at h, fun h => by simp at h⟩, rfl, rfl, rfl, rfl, fun c' h => ⟨hkro c' h, rfl, hKo c' h, fun _ _ => rfl⟩⟩
  | fvtpf =>
    obtain ⟨r, hr⟩ := kd (P c) x.Tref 0
    obtain ⟨v, hv⟩ := kv (P c) x.Tref 0
    have e : (0.0 : ℝ) = 0 := by norm_num
    simp only [cellUpdate, waterUpdate, hw, wr_same, e, hr, hv]
    refine ⟨_, rfl, ⟨hkr, hK, fun _ => ?_, fun h => by simp at h, fun _ h => absurd rfl h, fun _ => ?_,
      fun h => by simp at h⟩, rfl, rfl, rfl, rfl, fun c' h => ⟨hkro c' h, ?_, hKo c' h, fun _ _ => rfl⟩⟩
    · simp only [wr_same]; exact waterAt_of hr hv rfl rfl rfl rfl rfl rfl
    · simp only [wr_same]
    · simp only [wr_other _ _ h]
  | richards =>
    obtain ⟨r, hr⟩ := kd (P c) x.Tref (st.water c).mnacl
    obtain ⟨v, hv⟩ := kv (P c) x.Tref (st.water c).mnacl
    simp only [cellUpdate, waterUpdate, hw, hr, hv]
    refine ⟨_, rfl, ⟨hkr, hK, fun _ => ?_, fun h => by simp at h, fun _ _ => ?_,
      fun h => by simp at h, fun h => by simp at h⟩, rfl, rfl, rfl, rfl, fun c' h => ⟨hkro c' h, ?_, hKo c' h, fun _ _ => rfl⟩⟩
    · simp only [wr_same]; exact waterAt_of hr hv rfl rfl rfl rfl rfl rfl
    · simp only [wr_same]
    · exact wr_other _ _ h
  | th =>
    obtain ⟨r, hr⟩ := kd (P c) x.Tref (st.water c).mnacl
    obtain ⟨v, hv⟩ := kv (P c) x.Tref (st.water c).mnacl
    simp only [cellUpdate, waterUpdate, hw, hr, hv, Res.bind, heatUpdate, kh rfl, Bool.not_true,
      Bool.false_eq_true, if_false, wr_same]
    refine ⟨_, rfl, ⟨hkr, hK, fun _ => ?_, fun h => by simp at h, fun _ _ => ?_,
      fun h => by simp at h, fun h => ⟨?_, ?_, ?_⟩⟩, rfl, rfl, rfl, rfl, fun c' h => ⟨hkro c' h, ?_, hKo c' h, ?_⟩⟩
    · simp only [wr_same]; exact waterAt_of hr hv rfl rfl rfl rfl rfl rfl
    · simp only [wr_same]
    · simp only [wr_same]
    · simp only [wr_same]
    · exact (block_fill _ c x.kappa0 st.kappa).1
    · simp only [wr_other _ _ h]
    · intro j hj
      exact (block_fill _ c x.kappa0 st.kappa).2 c' j h hj
  | salinity =>
    obtain ⟨r, hr⟩ := kd (P c) x.Tref (saltFraction (second c) (x.muSaline c))
    obtain ⟨v, hv⟩ := kv (P c) x.Tref (saltFraction (second c) (x.muSaline c))
    have e : salinityFraction (second c) (x.muSaline c) = saltFraction (second c) (x.muSaline c) := rfl
    simp only [cellUpdate, waterUpdate, saltUpdate, hw, wr_same, e, hr, hv]
    refine ⟨_, rfl, ⟨hkr, hK, fun _ => ?_, fun _ => ?_, fun h => absurd rfl h,
      fun h => by simp at h, fun h => by simp at h⟩, rfl, rfl, rfl, rfl, fun c' h => ⟨hkro c' h, ?_, hKo c' h, fun _ _ => rfl⟩⟩
    · simp only [wr_same]; exact waterAt_of hr hv rfl rfl rfl rfl rfl rfl
    · simp only [wr_same]
    · simp only [wr_other _ _ h]

/-- The loop over the cells. -/
theorem cells_done (mode : Mode) (x : Ctx) (hk : Known mode x) (P second : Nat → ℝ) (st : St) (n : Nat) :
    ∃ r, forN n (fun c (r : Res St) => r.bind (cellUpdate mode x c (P c) (second c))) (.ok st) = .ok r ∧
      (∀ c < n, Done mode x P second st c r) ∧ r.sat = st.sat ∧ r.pVec = st.pVec ∧ r.tVec = st.tVec ∧
      r.psiVec = st.psiVec ∧ ∀ c, n ≤ c → r.kr c = st.kr c ∧ r.water c = st.water c := by
  induction n with
  | zero => exact ⟨st, rfl, fun _ h => by omega, rfl, rfl, rfl, rfl, fun _ _ => ⟨rfl, rfl⟩⟩
  | succ n ih =>
    obtain ⟨r, er, hd, h1, h2, h3, h4, ho⟩ := ih
    obtain ⟨r', er', hd', g1, g2, g3, g4, go⟩ := cell_done mode x hk P second n r
    refine ⟨r', ?_, ?_, g1.trans h1, g2.trans h2, g3.trans h3, g4.trans h4, ?_⟩
    · simp only [forN]; rw [er]; exact er'
    · intro c hc
      by_cases e : c = n
      · subst e
        obtain ⟨a, b⟩ := ho c le_rfl
        refine ⟨?_, ?_, hd'.water, hd'.salt, ?_, hd'.fresh, hd'.heat⟩
        · rw [hd'.kr, a]
        · intro j hj; rw [hd'.K j hj, a]
        · intro h h'; rw [hd'.noSalt h h', b]
      · have d := hd c (by omega)
        obtain ⟨a, b, k, kk⟩ := go c e
        refine ⟨?_, ?_, ?_, ?_, ?_, ?_, ?_⟩
        · rw [a]; exact d.kr
        · intro j hj; rw [k j hj]; exact d.K j hj
        · rw [b]; exact d.water
        · rw [b]; exact d.salt
        · rw [b]; exact d.noSalt
        · rw [b]; exact d.fresh
        · rw [b]; intro h
          obtain ⟨u, hh, kp⟩ := d.heat h
          exact ⟨u, hh, fun j hj => by rw [kk j hj]; exact kp j hj⟩
    · intro c hc
      obtain ⟨a, b, -⟩ := go c (by omega)
      obtain ⟨a', b'⟩ := ho c (by omega)
      exact ⟨a.trans a', b.trans b'⟩

/-- A whole update of an object in use. -/
theorem update_done (mode : Mode) {o : Options} {nc : Nat} {cc : CC} (hr : Reached o nc cc) (x : Ctx)
    (hk : Known mode x) (n len : Nat) (hn : nc ≤ n) (hlen : mode.dof*n ≤ len) (U : Nat → ℝ) (st : St) :
    ∃ sat kr st', sat = saturationCompute cc.sat x.Sr (fun c => x.Pref - U (mode.dof*c)) st.sat ∧
      kr = relPermCompute cc.kr (effective x.Sr sat) st.kr ∧
      updateState mode cc x n len U st = .ok st' ∧ st'.sat = sat ∧
      (∀ c < n, Done mode x (fun c => U (mode.dof*c)) (fun c => U (2*c + 1))
        { st with sat := sat, kr := kr } c st') ∧
      (mode ≠ .wy → ∀ c < n, st'.pVec c = U (mode.dof*c)) ∧
      (mode = .th → ∀ c < n, st'.tVec c = U (2*c + 1)) ∧
      (mode = .salinity → ∀ c < n, st'.psiVec c = U (2*c + 1)) := by
  obtain ⟨s0, k0, s1, k1, sp, -⟩ := reached_tables hr
  have hp : pointsBelow cc.sat n := by
    refine ⟨fun i h => by omega, fun i h => ?_⟩
    rw [sp]; omega
  have hc : countsUpTo cc.kr n := ⟨by omega, by omega⟩
  have back : (fun c => x.Pref - (x.Pref - U (mode.dof*c))) = fun c => U (mode.dof*c) := by
    funext c; ring
  obtain ⟨r, er, hd, h1, -⟩ := cells_done mode x hk (fun c => U (mode.dof*c)) (fun c => U (2*c + 1))
    { st with
      sat := saturationCompute cc.sat x.Sr (fun c => x.Pref - U (mode.dof*c)) st.sat
      kr := relPermCompute cc.kr (effective x.Sr
        (saturationCompute cc.sat x.Sr (fun c => x.Pref - U (mode.dof*c)) st.sat)) st.kr } n
  have eu : updateState mode cc x n len U st = .ok (vecUpdate mode n (fun c => U (mode.dof*c))
      (fun c => U (2*c + 1)) r) := by
    unfold updateState
    rw [if_neg (by omega)]
    simp only [curvesUpdate, hp, hc, not_true_eq_false, if_false, Res.bind]
    have e2 := er
    have : (fun c (r : Res St) => r.bind (cellUpdate mode x c (x.Pref - (x.Pref - U (mode.dof*c)))
        (U (2*c + 1)))) = (fun c (r : Res St) => r.bind (cellUpdate mode x c (U (mode.dof*c))
        (U (2*c + 1)))) := by
      funext c r
      rw [congrFun back c]
    simp only [Res.bind] at this e2
    rw [this, e2]
    simp only [congrFun back]
  refine ⟨_, _, _, rfl, rfl, eu, ?_, ?_, ?_, ?_, ?_⟩
  · cases mode <;> exact h1
  · intro c hc
    have d := hd c hc
    cases mode <;> exact ⟨d.kr, d.K, d.water, d.salt, d.noSalt, d.fresh, d.heat⟩
  · intro h1 c hc
    cases mode
    · exact absurd rfl h1
    · simp only [vecUpdate]; rw [forN_fill, if_pos hc]
    · simp only [vecUpdate]; rw [forN_fill, if_pos hc]
    · simp only [vecUpdate]; rw [forN_fill, if_pos hc]
    · simp only [vecUpdate]; rw [forN_fill, if_pos hc]
  · intro h c hc
    subst h
    simp only [vecUpdate]; rw [forN_fill, if_pos hc]
  · intro h c hc
    subst h
    simp only [vecUpdate]; rw [forN_fill, if_pos hc]

end

end TDy.State.Proofs
