import Verif.Props.FvtpfJacobian

/-! # C90, C91: reported diagnostics and boundary states of the two-point flux method -/

namespace TDy.Fvtpf.Props

open TDy.Fvtpf TDy.Fvtpf.Spec TDy.Fvtpf.Proofs

noncomputable section

/-! ## C90 : diagnostics -/

/-- The reported saturation is the cell's; the reported mass is the mass of water in the cell
exactly when all of the cell's volume is water. -/
theorem C90_diagnostics_partial (c : Ctx) (i : Nat) (hr : (c.cells i).rho ≠ 0) (hv : c.vol i ≠ 0) :
    (diagnostics c i).1 = (c.cells i).S ∧
    ((diagnostics c i).2 = mass c i ↔ c.por i*(c.cells i).S = 1) := by
  refine ⟨rfl, ?_⟩
  unfold diagnostics mass
  simp only
  constructor
  · intro h
    have : (c.cells i).rho*c.vol i*(c.por i*(c.cells i).S) = (c.cells i).rho*c.vol i*1 := by
      linarith
    exact mul_left_cancel₀ (mul_ne_zero hr hv) this
  · intro h
    rw [h]; ring

/-- So in a porous medium the reported mass is always too large. -/
theorem C90_mass_overstated (c : Ctx) (i : Nat) (hr : 0 < (c.cells i).rho) (hv : 0 < c.vol i)
    (hp : 0 ≤ c.por i ∧ c.por i < 1) (hS : 0 ≤ (c.cells i).S ∧ (c.cells i).S ≤ 1) :
    mass c i < (diagnostics c i).2 := by
  unfold diagnostics mass
  simp only
  have h1 : c.por i*(c.cells i).S < 1 := by nlinarith [hp.1, hp.2, hS.1, hS.2]
  have := mul_pos hr hv
  nlinarith

/-- Non-vacuity of C90: sand at 40 percent porosity, half saturated. -/
example : mass { pair with por := fun _ => 0.4, cells := fun _ => ⟨0, 0.5, 1, 1, 1000, 0, 0, 0, 0⟩ } 0
    = 200 := by norm_num [mass, pair]

/-! ## C91 : the states follow the pressures -/

/-- After an update from the pressures `U`, every cell below `n` holds the state its own material
gives at its own pressure, whatever it held before. -/
theorem C91_cells (c : Ctx) (law : Nat → Law) (n : Nat) (U : Nat → ℝ) (i : Nat) (hi : i < n) :
    let s := (updateState c law n U).cells i
    s.P = U i ∧ s.S = ((law i).sat (c.Pref - U i)).S ∧
    s.Kr = ((law i).kr ((s.S - (law i).Sr)/(1 - (law i).Sr))).k ∧
    s.rho = ((law i).rho (U i)).v ∧ s.vis = ((law i).vis (U i)).v := by
  have key : ∃ old, (updateState c law n U).cells i = updateCell c.Pref (law i) (U i) old := by
    show ∃ old, forN n (fun i s => wr s i (updateCell c.Pref (law i) (U i) (s i))) c.cells i = _
    induction n with
    | zero => omega
    | succ n ih =>
      simp only [forN]
      by_cases h : i = n
      · subst h
        exact ⟨_, wr_same _ _ _⟩
      · rw [wr_other _ _ h]
        exact ih (by omega)
  obtain ⟨old, e⟩ := key
  intro s
  have e : s = updateCell c.Pref (law i) (U i) old := e
  rw [e]
  have hb : c.Pref - (c.Pref - U i) = U i := by ring
  refine ⟨rfl, rfl, ?_, ?_, ?_⟩ <;> simp only [updateCell, hb, lit1]

/-- Boundary faces numbered by the mesh: the boundary loop writes only the entries of its faces,
each once. -/
theorem bnds_after (c : Ctx) (law : Nat → Law) (pressure : Nat → Option ℝ)
    (hnum : ∀ i < c.numFaces, (c.face i).isInternal = false →
      (c.face i).up = (numberBoundaryFaces c.numFaces fun i => (c.face i).isInternal).2 i)
    (i : Nat) (hi : i < c.numFaces) (hb : (c.face i).isInternal = false) :
    (updateBoundary c law pressure).bnds (bndIndex (c.face i).up).toNat =
      updateBnd c.Pref (law (c.face i).dn.toNat) (pressure i) (c.cells (c.face i).dn.toNat).P
        (c.bnds (bndIndex (c.face i).up).toNat) := by
  obtain ⟨enc1, enc2, -⟩ := C44_encoding (fun i => (c.face i).isInternal) c.numFaces
  set num := numberBoundaryFaces c.numFaces fun i => (c.face i).isInternal
  have hneg : ∀ j < c.numFaces, (c.face j).isInternal = false → (c.face j).up < 0 := by
    intro j hj hjb
    have := (enc1 j hj hjb).1
    rw [hnum j hj hjb]
    unfold bndIndex at this
    omega
  have hinj : ∀ j < c.numFaces, ∀ k < c.numFaces, (c.face j).isInternal = false →
      (c.face k).isInternal = false →
      (bndIndex (c.face j).up).toNat = (bndIndex (c.face k).up).toNat → j = k := by
    intro j hj k hk hjb hkb h
    apply enc2 j hj k hk hjb hkb
    have h1 := (enc1 j hj hjb).1
    have h2 := (enc1 k hk hkb).1
    rw [hnum j hj hjb, hnum k hk hkb] at h
    omega
  have key : ∀ m ≤ c.numFaces, forN m (fun i b =>
      let f := c.face i
      if f.isInternal then b
      else
        let cell := if 0 ≤ f.up then f.up.toNat else f.dn.toNat
        let idx := if 0 ≤ f.up then bndIndex f.dn else bndIndex f.up
        wr b idx.toNat (updateBnd c.Pref (law cell) (pressure i) (c.cells cell).P (b idx.toNat)))
      c.bnds (bndIndex (c.face i).up).toNat =
      if i < m then updateBnd c.Pref (law (c.face i).dn.toNat) (pressure i)
        (c.cells (c.face i).dn.toNat).P (c.bnds (bndIndex (c.face i).up).toNat)
      else c.bnds (bndIndex (c.face i).up).toNat := by
    intro m
    induction m with
    | zero => intro _; simp [forN]
    | succ m ih =>
      intro hm
      simp only [forN]
      have ih := ih (by omega)
      cases hint : (c.face m).isInternal
      · have hu : ¬ 0 ≤ (c.face m).up := by have := hneg m (by omega) hint; omega
        simp only [Bool.false_eq_true, if_false, if_neg hu]
        by_cases h : i = m
        · subst h
          rw [wr_same, if_pos (by omega)]
          rw [if_neg (by omega)] at ih
          exact congrArg _ ih
        · have hne : (bndIndex (c.face i).up).toNat ≠ (bndIndex (c.face m).up).toNat :=
            fun h' => h (hinj i hi m (by omega) hb hint h')
          rw [wr_other _ _ hne]
          rw [if_congr (show i < m + 1 ↔ i < m by omega) rfl rfl]
          exact ih
      · simp only [if_true]
        have h : i ≠ m := by
          rintro rfl; rw [hint] at hb; exact absurd hb (by simp)
        rw [if_congr (show i < m + 1 ↔ i < m by omega) rfl rfl]
        exact ih
  have := key c.numFaces le_rfl
  rw [if_pos hi] at this
  exact this

/-- After an update, every boundary face holds its prescribed pressure (or its cell's pressure),
and the saturation and relative permeability its cell's material gives at that pressure.  Missing
from the full property: density and viscosity are not updated. -/
theorem C91_boundary_partial (c : Ctx) (law : Nat → Law) (pressure : Nat → Option ℝ)
    (hnum : ∀ i < c.numFaces, (c.face i).isInternal = false →
      (c.face i).up = (numberBoundaryFaces c.numFaces fun i => (c.face i).isInternal).2 i)
    (i : Nat) (hi : i < c.numFaces) (hb : (c.face i).isInternal = false) :
    let s := (updateBoundary c law pressure).bnds (bndIndex (c.face i).up).toNat
    let l := law (c.face i).dn.toNat
    s.P = (pressure i).getD (c.cells (c.face i).dn.toNat).P ∧
    s.S = (l.sat (c.Pref - s.P)).S ∧ s.Kr = (l.kr ((s.S - l.Sr)/(1 - l.Sr))).k := by
  intro s l
  have e : s = _ := bnds_after c law pressure hnum i hi hb
  rw [e]
  unfold updateBnd
  refine ⟨?_, rfl, ?_⟩
  · cases pressure i <;> rfl
  · simp only [lit1]; rfl

/-- Density and viscosity of a boundary face stay what they were computed to be once, at the
reference pressure, whatever the boundary pressure becomes. -/
theorem C91_boundary_density_stale (c : Ctx) (law : Nat → Law) (pressure : Nat → Option ℝ)
    (hnum : ∀ i < c.numFaces, (c.face i).isInternal = false →
      (c.face i).up = (numberBoundaryFaces c.numFaces fun i => (c.face i).isInternal).2 i)
    (i : Nat) (hi : i < c.numFaces) (hb : (c.face i).isInternal = false)
    (hinit : c.bnds (bndIndex (c.face i).up).toNat = initBnd c.Pref (law (c.face i).dn.toNat)) :
    ((updateBoundary c law pressure).bnds (bndIndex (c.face i).up).toNat).rho =
      ((law (c.face i).dn.toNat).rho c.Pref).v := by
  rw [bnds_after c law pressure hnum i hi hb, hinit]
  rfl

/-- With the exponential density law and a boundary pressure above the reference pressure
(101325 Pa), that is not the density of water at the boundary pressure. -/
theorem C91_boundary_density_wrong (p : ℝ) (hp : 101325 < p) :
    (Eos.densityExponential 101325).v ≠ (Eos.densityExponential p).v := by
  rw [Eos.Props.exp_ge le_rfl, Eos.Props.exp_ge hp.le]
  simp only [sub_self, mul_zero, Real.exp_zero]
  have : 1 < Real.exp (1e-8*(p - 101325)) := by
    rw [Real.one_lt_exp_iff]
    have : 0 < p - 101325 := by linarith
    positivity
  linarith

/-- Non-vacuity of C91: the mesh `seep` has one boundary face, numbered -1. -/
example : (seep.face 0).up = (numberBoundaryFaces seep.numFaces
    fun i => (seep.face i).isInternal).2 0 := by
  simp [seep, pair, numberBoundaryFaces, forN, wr]

end

end TDy.Fvtpf.Props
