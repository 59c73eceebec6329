import Verif.Proofs.State
import Verif.Props.CurveTables
import Mathlib.Analysis.Calculus.Deriv.Comp
import Mathlib.Analysis.Calculus.Deriv.Add
import Mathlib.Analysis.Calculus.Deriv.Mul

/-!
# C122 - C128: states of cells and boundary faces

`Reached o nc cc` is any state of the characteristic curves after setup with `nc` cells.
-/

namespace TDy.State.Props

open TDy.Curves TDy.Eos TDy.State TDy.State.Spec TDy.State.Proofs

noncomputable section

/-- Known laws deliver a value. -/
theorem known_of {mode : Mode} {x : Ctx} (hd : x.density ≠ .other) (hv : x.viscosity ≠ .other)
    (he : mode = .th → x.enthalpyConstant = true) : Known mode x := by
  refine ⟨fun P T S => ?_, fun P T S => ?_, he⟩
  · cases h : x.density with
    | other => exact absurd h hd
    | _ => exact ⟨_, rfl⟩
  · cases h : x.viscosity with
    | other => exact absurd h hv
    | _ => exact ⟨_, rfl⟩

/-! ## C122 : after setup, the states of the cells follow the unknowns -/

/-- There is one smoothed Mualem curve such that after every update, in every method and mode and
whatever was stored before, each cell holds the van Genuchten saturation at its own pressure, the
relative permeability at the effective saturation, and the permeability scaled with it; the water has
the density and viscosity of the chosen laws at the cell's pressure, the reference temperature and the
cell's salt fraction, which in salinity mode is that of the cell's concentration; and the vectors of
pressures, temperatures and concentrations hold the unknowns. -/
theorem C122_cells_follow_unknowns (mode : Mode) {o : Options} (ho : Sound o) {nc : Nat} {cc : CC}
    (hcc : Reached o nc cc) (x : Ctx) (hd : x.density ≠ .other) (hv : x.viscosity ≠ .other)
    (he : mode = .th → x.enthalpyConstant = true) :
    ∃ kr dkr, SmoothedMualem o kr dkr ∧ ∀ (U : Nat → ℝ) (st : St),
      ∃ st', updateState mode cc x nc (mode.dof*nc) U st = .ok st' ∧ ∀ c < nc,
        let P := U (mode.dof*c)
        let S := vgSaturation o.m o.alpha (x.Sr c) (x.Pref - P)
        (st'.sat c).S = S ∧
        (st'.kr c).k = kr ((S - x.Sr c)/(1 - x.Sr c)) ∧
        (∀ j < x.dim*x.dim, st'.K (c*(x.dim*x.dim) + j) =
          x.K0 (c*(x.dim*x.dim) + j)*kr ((S - x.Sr c)/(1 - x.Sr c))) ∧
        (mode ≠ .wy → WaterAt x P x.Tref (st'.water c) ∧ st'.pVec c = P) ∧
        (mode = .salinity → (st'.water c).mnacl = saltFraction (U (2*c + 1)) (x.muSaline c) ∧
          st'.psiVec c = U (2*c + 1)) ∧
        (mode = .th → (st'.water c).u = (st'.water c).h - P/(st'.water c).rho ∧
          st'.tVec c = U (2*c + 1)) := by
  obtain ⟨k, hk, hsm⟩ := mualem_smoothed ho
  refine ⟨_, _, hsm, fun U st => ?_⟩
  obtain ⟨sat, kr, st', hsat, hkr, eu, es, hdone, hp, ht, hpsi⟩ := update_done mode hcc x
    (known_of hd hv he) nc (mode.dof*nc) le_rfl le_rfl U st
  refine ⟨st', eu, fun c hc => ?_⟩
  have hS : (sat c).S = vgSaturation o.m o.alpha (x.Sr c) (x.Pref - U (mode.dof*c)) := by
    rw [hsat, saturation_apply hcc _ _ _ c hc, vanGenuchten_S]
  have hK : (kr c).k = (mualem o.m o.x0 o.x1 o.dx k
      ((vgSaturation o.m o.alpha (x.Sr c) (x.Pref - U (mode.dof*c)) - x.Sr c)/(1 - x.Sr c))).k := by
    rw [hkr, relPerm_apply hcc _ _ k hk c hc, effective, hS, one_lit]
  have d := hdone c hc
  refine ⟨by rw [es, hS], ?_, ?_, fun h => ⟨d.water h, hp h c hc⟩, fun h => ⟨d.salt h, hpsi h c hc⟩,
    fun h => ⟨(d.heat h).1, ht h c hc⟩⟩
  · rw [d.kr]; exact hK
  · intro j hj
    rw [d.K j hj]
    exact congrArg _ hK

/-- Setup succeeds with sound options. -/
theorem C122_setup {o : Options} (ho : Sound o) (nc : Nat) : ∃ cc, initCurves o nc {} = .ok cc := by
  obtain ⟨k, hk, -⟩ := mualem_smoothed ho
  unfold initCurves
  dsimp only
  split
  · exact ⟨_, rfl⟩
  · rw [hk]; exact ⟨_, rfl⟩

/-- A material of default options: two cells of sand. -/
def sand : Ctx :=
  { Pref := 101325, Tref := 25, dim := 3, Sr := fun _ => 0.15, K0 := fun _ => 1e-12,
    kappa0 := fun _ => 1, muSaline := fun _ => 58.44, density := .batzleWang, viscosity := .constant,
    enthalpyConstant := true }

/-- The default options of the library (src/tdycore.c:281-286). -/
def defaults : Options := ⟨0.8, 1.e-4, 0.995, 0.99, 1.00, 0.005⟩

theorem defaults_sound : Sound defaults := by
  constructor <;> norm_num [defaults]

/-- Non-vacuity of C122: default options, TH mode. -/
example : ∃ cc, Reached defaults 2 cc ∧ sand.density ≠ .other ∧ sand.viscosity ≠ .other ∧
    sand.enthalpyConstant = true := by
  obtain ⟨cc, h⟩ := C122_setup defaults_sound 2
  exact ⟨cc, .setup h, by simp [sand], by simp [sand], rfl⟩

/-! ## C123 : stored derivatives are derivatives; the states are physical -/

/-- The state of a cell as a function of the unknowns: the stored slope of the saturation is its
derivative with respect to the cell's pressure, and the product of the stored slopes is the derivative
of the relative permeability; where the cell is not just saturated, the stored curvature is the second
derivative. -/
theorem C123_derivatives (mode : Mode) {o : Options} (ho : Sound o) {nc : Nat} {cc : CC}
    (hcc : Reached o nc cc) (x : Ctx) (hd : x.density ≠ .other) (hv : x.viscosity ≠ .other)
    (he : mode = .th → x.enthalpyConstant = true) (hSr : ∀ c < nc, x.Sr c < 1) (st : St) :
    ∃ f : (Nat → ℝ) → St, (∀ U, updateState mode cc x nc (mode.dof*nc) U st = .ok (f U)) ∧
      ∀ U, ∀ c < nc,
        HasDerivAt (fun p => ((f (wr U (mode.dof*c) p)).sat c).S) ((f U).sat c).dS (U (mode.dof*c)) ∧
        HasDerivAt (fun p => ((f (wr U (mode.dof*c) p)).kr c).k)
          (((f U).kr c).dk*((f U).sat c).dS) (U (mode.dof*c)) ∧
        (U (mode.dof*c) ≠ x.Pref →
          HasDerivAt (fun p => ((f (wr U (mode.dof*c) p)).sat c).dS) ((f U).sat c).d2S
            (U (mode.dof*c))) := by
  obtain ⟨k, hk, hsm⟩ := mualem_smoothed ho
  have main := fun U => update_done mode hcc x (known_of hd hv he) nc (mode.dof*nc) le_rfl le_rfl U st
  choose sat kr st' hsat hkr eu es hdone _ _ _ using main
  refine ⟨st', eu, fun U c hc => ?_⟩
  have hS : ∀ U, (st' U).sat c = vanGenuchten o.m o.alpha (x.Sr c) (x.Pref - U (mode.dof*c)) := by
    intro U
    rw [es, hsat, saturation_apply hcc _ _ _ c hc]
  have hK : ∀ U, (st' U).kr c = ⟨(mualem o.m o.x0 o.x1 o.dx k
        (((vanGenuchten o.m o.alpha (x.Sr c) (x.Pref - U (mode.dof*c))).S - x.Sr c)/(1 - x.Sr c))).k,
      (mualem o.m o.x0 o.x1 o.dx k
        (((vanGenuchten o.m o.alpha (x.Sr c) (x.Pref - U (mode.dof*c))).S - x.Sr c)/(1 - x.Sr c))).dk
        *(1/(1 - x.Sr c))⟩ := by
    intro U
    rw [(hdone U c hc).kr]
    dsimp only
    rw [hkr U, relPerm_apply hcc _ _ k hk c hc, effective, ← es U, hS U, one_lit]
  have ew : ∀ p, wr U (mode.dof*c) p (mode.dof*c) = p := fun p => wr_same _ _ _
  have d1 := Curves.Props.C13_first_derivative (Sr := x.Sr c) (Pref := x.Pref) ho.m0 ho.m1 ho.alpha
    (U (mode.dof*c))
  simp only [hS, hK, ew]
  refine ⟨d1, ?_, ?_⟩
  · have hr := hSr c hc
    have hb := Curves.Props.C12_bounds (Pc := x.Pref - U (mode.dof*c)) ho.m0 ho.alpha hr
    have hSe : 0 < ((vanGenuchten o.m o.alpha (x.Sr c) (x.Pref - U (mode.dof*c))).S - x.Sr c)
        /(1 - x.Sr c) := div_pos (by linarith [hb.1]) (by linarith)
    have d2 := hsm.deriv _ hSe
    have d3 : HasDerivAt (fun p => ((vanGenuchten o.m o.alpha (x.Sr c) (x.Pref - p)).S - x.Sr c)
        /(1 - x.Sr c)) ((vanGenuchten o.m o.alpha (x.Sr c) (x.Pref - U (mode.dof*c))).dS
        /(1 - x.Sr c)) (U (mode.dof*c)) := (d1.sub_const _).div_const _
    have d4 := HasDerivAt.comp (U (mode.dof*c)) d2 d3
    exact d4.congr_deriv (by ring)
  · intro h
    exact Curves.Props.C13_second_derivative ho.alpha _ (by intro h'; apply h; linarith)

/-- Whatever the unknowns, the saturation of a cell lies above its residual saturation and is 1 exactly
where the pressure is at least the reference pressure, the relative permeability lies between 0 and 1,
and it is 1 where the cell is saturated. -/
theorem C123_physical (mode : Mode) {o : Options} (ho : Sound o) (hx1 : 1/25 ≤ o.x1) (hx2 : o.x2 = 1)
    {nc : Nat} {cc : CC} (hcc : Reached o nc cc) (x : Ctx) (hd : x.density ≠ .other)
    (hv : x.viscosity ≠ .other) (he : mode = .th → x.enthalpyConstant = true)
    (hSr : ∀ c < nc, x.Sr c < 1) (U : Nat → ℝ) (st : St) :
    ∃ st', updateState mode cc x nc (mode.dof*nc) U st = .ok st' ∧ ∀ c < nc,
      x.Sr c < (st'.sat c).S ∧ (st'.sat c).S ≤ 1 ∧
      ((st'.sat c).S = 1 ↔ x.Pref ≤ U (mode.dof*c)) ∧
      0 ≤ (st'.kr c).k ∧ (st'.kr c).k ≤ 1 ∧ (x.Pref ≤ U (mode.dof*c) → (st'.kr c).k = 1) := by
  obtain ⟨k, hk, hsm⟩ := mualem_smoothed ho
  obtain ⟨k', hk', hb, -⟩ := Curves.Props.C82_smoothed_mualem (x0 := o.x0) ho.m0 ho.m1 hx1 ho.x1lt ho.dx
  rw [hx2] at hk
  have : k' = k := by rw [hk] at hk'; exact (Option.some.inj hk').symm
  subst this
  obtain ⟨sat, kr, st', hsat, hkr, eu, es, hdone, -, -, -⟩ := update_done mode hcc x
    (known_of hd hv he) nc (mode.dof*nc) le_rfl le_rfl U st
  refine ⟨st', eu, fun c hc => ?_⟩
  have hS : sat c = vanGenuchten o.m o.alpha (x.Sr c) (x.Pref - U (mode.dof*c)) := by
    rw [hsat, saturation_apply hcc _ _ _ c hc]
  obtain ⟨b0, b1, b2⟩ := Curves.Props.C12_bounds (Pc := x.Pref - U (mode.dof*c)) ho.m0 ho.alpha (hSr c hc)
  have hK : (st'.kr c).k = (mualem o.m o.x0 o.x1 o.dx k' (((sat c).S - x.Sr c)/(1 - x.Sr c))).k := by
    rw [(hdone c hc).kr]
    dsimp only
    rw [hkr, relPerm_apply hcc _ _ k' (by rw [hx2]; exact hk) c hc, effective, one_lit]
  have h1 : 0 < 1 - x.Sr c := by linarith [hSr c hc]
  have hSe : ((sat c).S - x.Sr c)/(1 - x.Sr c) ∈ Set.Icc (0:ℝ) 1 := by
    rw [hS]
    exact ⟨div_nonneg (by linarith) h1.le, by rw [div_le_one h1]; linarith⟩
  obtain ⟨c0, c1⟩ := hb _ hSe
  rw [es, hK, hS]
  rw [hS] at c0 c1
  refine ⟨b0, b1, ⟨fun h => by linarith [b2.1 h], fun h => b2.2 (by linarith)⟩, c0, c1, fun h => ?_⟩
  rw [b2.2 (by linarith), div_self h1.ne']
  have := hsm.top.1
  rw [hx2] at this
  exact this

/-- Non-vacuity of C123: the default options. -/
example : (1:ℝ)/25 ≤ defaults.x1 ∧ defaults.x2 = 1 ∧ ∀ c < 2, sand.Sr c < 1 :=
  ⟨by norm_num [defaults], by norm_num [defaults], fun _ _ => by norm_num [sand]⟩

/-! ## C124 : thermal mode evaluates the water at the cell's temperature -/

/-- It does not: there is a cell whose water, after an update from its pressure and temperature, does
not have the density of the chosen law at that pressure and temperature. -/
theorem C124_violated :
    ∃ (o : Options) (cc : CC) (x : Ctx) (U : Nat → ℝ) (st st' : St), Sound o ∧ Reached o 1 cc ∧
      x.density = .batzleWang ∧ updateState .th cc x 1 2 U st = .ok st' ∧
      ¬ WaterAt x (U 0) (U 1) (st'.water 0) := by
  obtain ⟨cc, h⟩ := C122_setup defaults_sound 1
  let U : Nat → ℝ := fun _ => 0
  let st : St := ⟨fun _ => ⟨0, 0, 0⟩, fun _ => ⟨0, 0⟩, fun _ => 0, fun _ => 0,
    fun _ => ⟨0, 0, 0, 0, 0, 0, 0, 0, 0, 0, 0⟩, fun _ => 0, fun _ => 0, fun _ => 0⟩
  obtain ⟨sat, kr, st', -, -, eu, -, hdone, -⟩ := update_done .th (.setup h) sand
    (known_of (by simp [sand]) (by simp [sand]) fun _ => rfl) 1 2 le_rfl le_rfl U st
  refine ⟨defaults, cc, sand, U, st, st', defaults_sound, .setup h, rfl, eu, ?_⟩
  intro hw
  have d := hdone 0 (by decide)
  have h1 := (d.water (by simp)).1
  have h2 := hw.1
  have hm : (st'.water 0).mnacl = 0 := d.noSalt (by simp) (by simp)
  rw [hm] at h1 h2
  have e := h2.trans h1.symm
  simp only [densityLaw, sand, densityBatzleWang, Option.some.injEq, U] at e
  norm_num at e

/-- With laws that do not depend on the temperature (constant or exponential density, constant
viscosity) the water has the density and viscosity of the laws at the cell's pressure and temperature.
Missing: the Batzle-Wang laws. -/
theorem C124_partial {o : Options} (ho : Sound o) {nc : Nat} {cc : CC} (hcc : Reached o nc cc) (x : Ctx)
    (hd : x.density = .constant ∨ x.density = .exponential) (hv : x.viscosity = .constant)
    (he : x.enthalpyConstant = true) (U : Nat → ℝ) (st : St) :
    ∃ st', updateState .th cc x nc (2*nc) U st = .ok st' ∧ ∀ c < nc,
      WaterAt x (U (2*c)) (U (2*c + 1)) (st'.water c) := by
  have hd' : x.density ≠ .other := by rcases hd with h | h <;> simp [h]
  have hv' : x.viscosity ≠ .other := by simp [hv]
  obtain ⟨kr, dkr, -, h⟩ := C122_cells_follow_unknowns .th ho hcc x hd' hv' (fun _ => he)
  obtain ⟨st', eu, hc⟩ := h U st
  refine ⟨st', eu, fun c h => ?_⟩
  have hw := ((hc c h).2.2.2.1 (by simp)).1
  obtain ⟨w1, w2, w3, w4⟩ := hw
  refine ⟨?_, ?_, fun a b => ?_, w4⟩
  · rcases hd with h | h <;> rw [h] at w1 ⊢ <;> exact w1
  · rw [hv] at w2 ⊢; exact w2
  · have := w3 a b
    rcases hd with h | h <;> rw [h] at this ⊢ <;> exact this

/-- Non-vacuity of C124. -/
example : ∃ cc, Reached defaults 3 cc := by
  obtain ⟨cc, h⟩ := C122_setup defaults_sound 3
  exact ⟨cc, .setup h⟩

/-! ## C125 : updates before a step stay inside the data of the process -/

/-- On a process without ghost cells the update before a step is the update of all its cells. -/
theorem C125_no_ghosts_partial (mode : Mode) {o : Options} {nc : Nat} {cc : CC}
    (hcc : Reached o nc cc) (x : Ctx) (hd : x.density ≠ .other) (hv : x.viscosity ≠ .other)
    (he : mode = .th → x.enthalpyConstant = true) (U : Nat → ℝ) (st : St) :
    preSolveState mode cc x nc nc U st = updateState mode cc x nc (mode.dof*nc) U st ∧
    ∃ st', preSolveState mode cc x nc nc U st = .ok st' := by
  have e : preSolveState mode cc x nc nc U st = updateState mode cc x nc (mode.dof*nc) U st := by
    unfold preSolveState; rw [ite_self]
  obtain ⟨-, -, st', -, -, eu, -⟩ := update_done mode hcc x
    (known_of hd hv he) nc (mode.dof*nc) le_rfl le_rfl U st
  exact ⟨e, st', e.trans eu⟩

/-- With ghost cells its behaviour is undefined, in every mode and for every state: either the curves
are evaluated in ghost cells for which there are no pressures, or the pressures of ghost cells are read
behind the end of the solution. -/
theorem C125_violated (mode : Mode) {o : Options} {nc : Nat} {cc : CC} (hcc : Reached o nc cc)
    (x : Ctx) (nLocal : Nat) (hg : nLocal < nc) (U : Nat → ℝ) (st : St) :
    preSolveState mode cc x nLocal nc U st = .ub := by
  obtain ⟨-, -, h1, -, hp, -⟩ := reached_tables hcc
  unfold preSolveState updateState
  by_cases hm : mode = .salinity
  · subst hm
    rw [if_pos rfl, if_pos (by simp only [Mode.dof]; omega)]
  · rw [if_neg hm, if_neg (lt_irrefl _)]
    have : ¬ pointsBelow cc.sat nLocal := by
      intro h
      have := h.2 nLocal (by omega)
      rw [hp] at this
      omega
    simp only [curvesUpdate, this, not_false_eq_true, if_true, Res.bind]

/-- Witness of the violation: two cells of which one belongs to another process. -/
example : ∃ cc, Reached defaults 2 cc ∧ 1 < 2 := by
  obtain ⟨cc, h⟩ := C122_setup defaults_sound 2
  exact ⟨cc, .setup h, by decide⟩

/-! ## C126 : the residual saturation of the material is respected -/

/-- In every method but WY, a cell is never drier than the residual saturation given for it, whatever
the pressures. -/
theorem C126_residual_respected_partial (mode : Mode) (hm : mode ≠ .wy) {o : Options} (ho : Sound o)
    {nc : Nat} {cc : CC} (hcc : Reached o nc cc) (x : Ctx) (user : Nat → ℝ)
    (hx : x.Sr = initSr mode user) (hu : ∀ c < nc, user c < 1) (hd : x.density ≠ .other)
    (hv : x.viscosity ≠ .other) (he : mode = .th → x.enthalpyConstant = true) (U : Nat → ℝ) (st : St) :
    ∃ st', updateState mode cc x nc (mode.dof*nc) U st = .ok st' ∧ ∀ c < nc, user c < (st'.sat c).S := by
  have hs : x.Sr = user := by
    rw [hx]; cases mode <;> first | exact absurd rfl hm | rfl
  obtain ⟨sat, -, st', hsat, -, eu, es, -⟩ := update_done mode hcc x
    (known_of hd hv he) nc (mode.dof*nc) le_rfl le_rfl U st
  refine ⟨st', eu, fun c hc => ?_⟩
  rw [es, hsat, saturation_apply hcc _ _ _ c hc, hs]
  exact (Curves.Props.C12_bounds ho.m0 ho.alpha (hu c hc)).1

/-- The WY method ignores it: a cell becomes drier than the residual saturation of its material. -/
theorem C126_violated :
    ∃ (o : Options) (cc : CC) (x : Ctx) (user U : Nat → ℝ) (st st' : St), Sound o ∧ Reached o 1 cc ∧
      x.Sr = initSr .wy user ∧ user 0 = 0.15 ∧ updateState .wy cc x 1 1 U st = .ok st' ∧
      (st'.sat 0).S < user 0 := by
  let o : Options := ⟨1/2, 1, 0.995, 0.99, 1, 0.005⟩
  have ho : Sound o := by constructor <;> norm_num [o]
  obtain ⟨cc, h⟩ := C122_setup ho 1
  let x : Ctx := { sand with Sr := fun _ => 0, Pref := 0 }
  let U : Nat → ℝ := fun _ => -10
  let st : St := ⟨fun _ => ⟨0, 0, 0⟩, fun _ => ⟨0, 0⟩, fun _ => 0, fun _ => 0,
    fun _ => ⟨0, 0, 0, 0, 0, 0, 0, 0, 0, 0, 0⟩, fun _ => 0, fun _ => 0, fun _ => 0⟩
  obtain ⟨sat, -, st', hsat, -, eu, es, -⟩ := update_done .wy (.setup h) x
    (known_of (by simp [x, sand]) (by simp [x, sand]) fun h => by simp at h) 1 1 le_rfl le_rfl U st
  refine ⟨o, cc, x, fun _ => 0.15, U, st, st', ho, .setup h, rfl, rfl, eu, ?_⟩
  rw [es, hsat, saturation_apply (.setup h) _ _ _ 0 (by decide), vanGenuchten_S]
  have e : vgSaturation o.m o.alpha (x.Sr 0) (x.Pref - U (Mode.wy.dof*0)) = (101:ℝ) ^ (-(1/2):ℝ) := by
    simp only [vgSaturation, o, x, U, Mode.dof]
    norm_num
  rw [e]
  have h1 : (101:ℝ) ^ (-(1/2):ℝ) ≤ (100:ℝ) ^ (-(1/2):ℝ) :=
    Real.rpow_le_rpow_of_nonpos (by norm_num) (by norm_num) (by norm_num)
  have h2 : (100:ℝ) ^ (-(1/2):ℝ) = 1/10 := by
    rw [show (100:ℝ) = 10^(2:ℝ) by norm_num, ← Real.rpow_mul (by norm_num)]
    norm_num
  rw [h2] at h1
  norm_num at h1 ⊢
  linarith

/-! ## C128 : diagnostics -/

/-- The cells of this process, in order. -/
def localCells (n : Nat) (isLocal : Nat → Bool) : List Nat := (List.range n).filter isLocal

/-- The diagnostics of the `k`-th cell of this process are entries `2k` (saturation) and `2k+1` of the
vector, as many as there are such cells; nothing behind them is written. -/
theorem C128_diagnostics (n : Nat) (isLocal : Nat → Bool) (S rho V v : Nat → ℝ) :
    let r := diagnostics n isLocal S rho V v
    let l := localCells n isLocal
    r.2 = l.length ∧
    (∀ k (h : k < l.length), r.1 (2*k) = S l[k] ∧ r.1 (2*k + 1) = rho l[k]*V l[k]) ∧
    ∀ j, 2*l.length ≤ j → r.1 j = v j := by
  unfold diagnostics localCells
  induction n with
  | zero => exact ⟨rfl, fun k h => by simp at h, fun j _ => rfl⟩
  | succ n ih =>
    obtain ⟨e, hv, ho⟩ := ih
    cases hl : isLocal n
    · have : (List.range (n + 1)).filter isLocal = (List.range n).filter isLocal := by
        rw [List.range_succ, List.filter_append]; simp [hl]
      simp only [forN, hl, Bool.not_false, if_true, this]
      exact ⟨e, hv, ho⟩
    · have : (List.range (n + 1)).filter isLocal = (List.range n).filter isLocal ++ [n] := by
        rw [List.range_succ, List.filter_append]; simp [hl]
      simp only [forN, hl, Bool.not_true, Bool.false_eq_true, if_false, this, List.length_append,
        List.length_cons, List.length_nil, e]
      refine ⟨trivial, ?_, ?_⟩
      · intro k hk
        by_cases h : k < ((List.range n).filter isLocal).length
        · obtain ⟨a, b⟩ := hv k h
          rw [List.getElem_append_left h]
          constructor
          · rw [wr_other _ _ (by omega), wr_other _ _ (by omega)]; exact a
          · rw [wr_other _ _ (by omega), wr_other _ _ (by omega)]; exact b
        · have hk' : k = ((List.range n).filter isLocal).length := by omega
          subst hk'
          have el : ((List.range n).filter isLocal ++ [n])[((List.range n).filter isLocal).length]'(by simp) = n := by simp
          simp only [el]
          constructor
          · rw [wr_other _ _ (by omega), wr_same]
          · rw [wr_same]
      · intro j hj
        rw [wr_other _ _ (by omega), wr_other _ _ (by omega)]
        exact ho j (by omega)

/-- Non-vacuity of C128: cells 1 and 3 of four. -/
example : localCells 4 (fun c => c % 2 = 1) = [1, 3] := by decide

end

end TDy.State.Props
