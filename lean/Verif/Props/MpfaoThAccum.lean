import Verif.Model.MpfaoThAccum
import Verif.Props.MpfaoThJacobian

/-! # C129: the accumulation part of the Jacobian of the TH mode -/

namespace TDy.Mpfao.Props

open TDy.Mpfao TDy.Mpfao.Spec TDy.Mpfao.Proofs
open TDy.Fvtpf (Side)

noncomputable section

/-! ## The formulas are the second derivatives of mass and energy -/

/-- `q` is a quantity as a function of the pressure, and its derivatives at `x` are right. -/
structure AlongP (q : ℝ → Qty) (x : ℝ) : Prop where
  v : HasDerivAt (fun y => (q y).v) (q x).dP x
  dP : HasDerivAt (fun y => (q y).dP) (q x).dPP x
  dT : HasDerivAt (fun y => (q y).dT) (q x).dTP x

/-- `q` is a quantity as a function of the temperature, and its derivatives at `x` are right. -/
structure AlongT (q : ℝ → Qty) (x : ℝ) : Prop where
  v : HasDerivAt (fun y => (q y).v) (q x).dT x
  dP : HasDerivAt (fun y => (q y).dP) (q x).dTP x
  dT : HasDerivAt (fun y => (q y).dT) (q x).dTT x

/-- With porosity, density and saturation depending on the pressure in any way, the coefficients are the
partial derivatives of the mass `phi*rho*S` and their derivatives. -/
theorem C129_mass_along_pressure (phi rho S : ℝ → Qty) (x : ℝ) (h0 : AlongP phi x) (h1 : AlongP rho x)
    (h2 : AlongP S x) :
    HasDerivAt (fun y => (phi y).v*(rho y).v*(S y).v) (dmassP (phi x) (rho x) (S x)) x ∧
    HasDerivAt (fun y => dmassP (phi y) (rho y) (S y)) (d2massPP (phi x) (rho x) (S x)) x ∧
    HasDerivAt (fun y => dmassT (phi y) (rho y) (S y)) (d2massPT (phi x) (rho x) (S x)) x := by
  unfold dmassP dmassT d2massPP d2massPT
  refine ⟨?_, ?_, ?_⟩
  · refine ((h0.v.mul h1.v).mul h2.v).congr_deriv ?_
    simp only [Pi.mul_apply]; ring
  · refine ((((h1.v.mul h0.dP).mul h2.v).add ((h1.dP.mul h0.v).mul h2.v)).add
      ((h1.v.mul h0.v).mul h2.dP)).congr_deriv ?_
    simp only [Pi.mul_apply]; ring
  · refine ((((h2.v.mul h1.dT).mul h0.v).add ((h2.dT.mul h1.v).mul h0.v)).add
      ((h2.v.mul h1.v).mul h0.dT)).congr_deriv ?_
    simp only [Pi.mul_apply]; ring

/-- The same for the temperature. -/
theorem C129_mass_along_temperature (phi rho S : ℝ → Qty) (x : ℝ) (h0 : AlongT phi x)
    (h1 : AlongT rho x) (h2 : AlongT S x) :
    HasDerivAt (fun y => (phi y).v*(rho y).v*(S y).v) (dmassT (phi x) (rho x) (S x)) x ∧
    HasDerivAt (fun y => dmassP (phi y) (rho y) (S y)) (d2massPT (phi x) (rho x) (S x)) x ∧
    HasDerivAt (fun y => dmassT (phi y) (rho y) (S y)) (d2massTT (phi x) (rho x) (S x)) x := by
  unfold dmassP dmassT d2massTT d2massPT
  refine ⟨?_, ?_, ?_⟩
  · refine ((h0.v.mul h1.v).mul h2.v).congr_deriv ?_
    simp only [Pi.mul_apply]; ring
  · refine ((((h1.v.mul h0.dP).mul h2.v).add ((h1.dP.mul h0.v).mul h2.v)).add
      ((h1.v.mul h0.v).mul h2.dP)).congr_deriv ?_
    simp only [Pi.mul_apply]; ring
  · refine ((((h2.v.mul h1.dT).mul h0.v).add ((h2.dT.mul h1.v).mul h0.v)).add
      ((h2.v.mul h1.v).mul h0.dT)).congr_deriv ?_
    simp only [Pi.mul_apply]; ring

/-- The coefficients of the energy `phi*rho*S*u + rock*(1-phi)*T` along the pressure, at a fixed
temperature `T`. -/
theorem C129_energy_along_pressure (phi rho S u : ℝ → Qty) (rock T x : ℝ) (h0 : AlongP phi x)
    (h1 : AlongP rho x) (h2 : AlongP S x) (h3 : AlongP u x) :
    HasDerivAt (fun y => (phi y).v*(rho y).v*(S y).v*(u y).v + rock*(1 - (phi y).v)*T)
      (denergyP (phi x) (rho x) (S x) (u x) rock T) x ∧
    HasDerivAt (fun y => denergyP (phi y) (rho y) (S y) (u y) rock T)
      (d2energyPP (phi x) (rho x) (S x) (u x) rock T) x ∧
    HasDerivAt (fun y => denergyT (phi y) (rho y) (S y) (u y) rock T)
      (d2energyPT (phi x) (rho x) (S x) (u x) rock T) x := by
  unfold denergyP denergyT d2energyPP d2energyPT
  refine ⟨?_, ?_, ?_⟩
  · refine ((((h0.v.mul h1.v).mul h2.v).mul h3.v).add
      (((h0.v.const_sub 1).const_mul rock).mul_const T)).congr_deriv ?_
    simp only [Pi.mul_apply]; ring
  · refine (((((((h1.dP.mul h0.v).mul h2.v).mul h3.v).add (((h1.v.mul h0.dP).mul h2.v).mul h3.v)).add
      (((h1.v.mul h0.v).mul h2.dP).mul h3.v)).add (((h1.v.mul h0.v).mul h2.v).mul h3.dP)).add
      ((h0.dP.neg.const_mul rock).mul_const T)).congr_deriv ?_
    simp only [Pi.mul_apply]; ring
  · refine ((((((((h1.dT.mul h0.v).mul h2.v).mul h3.v).add (((h1.v.mul h0.dT).mul h2.v).mul h3.v)).add
      (((h1.v.mul h0.v).mul h2.dT).mul h3.v)).add (((h1.v.mul h0.v).mul h2.v).mul h3.dT)).add
      ((h0.dT.neg.const_mul rock).mul_const T)).add ((h0.v.const_sub 1).const_mul rock)).congr_deriv ?_
    simp only [Pi.mul_apply]; ring

/-- The coefficients of the energy along the temperature. -/
theorem C129_energy_along_temperature (phi rho S u : ℝ → Qty) (rock x : ℝ) (h0 : AlongT phi x)
    (h1 : AlongT rho x) (h2 : AlongT S x) (h3 : AlongT u x) :
    HasDerivAt (fun y => (phi y).v*(rho y).v*(S y).v*(u y).v + rock*(1 - (phi y).v)*y)
      (denergyT (phi x) (rho x) (S x) (u x) rock x) x ∧
    HasDerivAt (fun y => denergyP (phi y) (rho y) (S y) (u y) rock y)
      (d2energyPT (phi x) (rho x) (S x) (u x) rock x) x ∧
    HasDerivAt (fun y => denergyT (phi y) (rho y) (S y) (u y) rock y)
      (d2energyTT (phi x) (rho x) (S x) (u x) rock x) x := by
  have hT := hasDerivAt_id x
  unfold denergyP denergyT d2energyTT d2energyPT
  refine ⟨?_, ?_, ?_⟩
  · refine ((((h0.v.mul h1.v).mul h2.v).mul h3.v).add
      (((h0.v.const_sub 1).const_mul rock).mul hT)).congr_deriv ?_
    simp only [Pi.mul_apply, id]; ring
  · refine (((((((h1.dP.mul h0.v).mul h2.v).mul h3.v).add (((h1.v.mul h0.dP).mul h2.v).mul h3.v)).add
      (((h1.v.mul h0.v).mul h2.dP).mul h3.v)).add (((h1.v.mul h0.v).mul h2.v).mul h3.dP)).add
      ((h0.dP.neg.const_mul rock).mul hT)).congr_deriv ?_
    simp only [Pi.mul_apply, Pi.neg_apply, id]; ring
  · refine ((((((((h1.dT.mul h0.v).mul h2.v).mul h3.v).add (((h1.v.mul h0.dT).mul h2.v).mul h3.v)).add
      (((h1.v.mul h0.v).mul h2.dT).mul h3.v)).add (((h1.v.mul h0.v).mul h2.v).mul h3.dT)).add
      ((h0.dT.neg.const_mul rock).mul hT)).add ((h0.v.const_sub 1).const_mul rock)).congr_deriv ?_
    simp only [Pi.mul_apply, Pi.neg_apply, id]; ring

/-! ## The assembled blocks -/

theorem addBlock_at (A : Nat → Nat → Block) (n : Nat) (b : Block) (j i : Nat) :
    addBlock A n n b j i = if j = n ∧ i = n then
      ⟨(A j i).mP + b.mP, (A j i).mT + b.mT, (A j i).eP + b.eP, (A j i).eT + b.eT⟩ else A j i := by
  unfold addBlock
  by_cases h : j = n ∧ i = n
  · rw [if_pos h, if_pos ⟨by exact_mod_cast h.1, h.2⟩]
  · rw [if_neg h, if_neg (fun h' => h ⟨by exact_mod_cast h'.1, h'.2⟩)]

theorem accum_apply (t : Th) (dpdt dTdt : Nat → ℝ) (shift : ℝ) (A : Nat → Nat → Block) (j i : Nat) :
    thJacobianAccum t dpdt dTdt shift A j i =
      if j = i ∧ i < t.base.numCells ∧ t.base.isLocal i = true then
        addBlock A i i (thAccumBlock t dpdt dTdt shift i) i i
      else A j i := by
  unfold thJacobianAccum
  generalize t.base.numCells = n
  induction n with
  | zero => simp [forN]
  | succ n ih =>
    simp only [forN]
    cases hl : t.base.isLocal n
    · simp only [Bool.not_false, if_true]
      rw [ih]
      by_cases h : j = i ∧ i < n ∧ t.base.isLocal i = true
      · rw [if_pos h, if_pos ⟨h.1, by omega, h.2.2⟩]
      · rw [if_neg h, if_neg]
        rintro ⟨h1, h2, h3⟩
        have : i ≠ n := by rintro rfl; rw [hl] at h3; exact absurd h3 (by decide)
        exact h ⟨h1, by omega, h3⟩
    · simp only [Bool.not_true, Bool.false_eq_true, if_false]
      rw [addBlock_at]
      by_cases h : j = n ∧ i = n
      · obtain ⟨rfl, rfl⟩ := h
        rw [if_pos ⟨rfl, rfl⟩, if_pos ⟨rfl, by omega, hl⟩, ih, if_neg (by omega), addBlock_at,
          if_pos ⟨rfl, rfl⟩]
      · rw [if_neg h, ih]
        by_cases h' : j = i ∧ i < n ∧ t.base.isLocal i = true
        · rw [if_pos h', if_pos ⟨h'.1, by omega, h'.2.2⟩]
        · rw [if_neg h', if_neg]
          rintro ⟨h1, h2, h3⟩
          exact h' ⟨h1, by omega, h3⟩

/-- A cell whose stored derivatives with respect to the pressure are right, and whose mixed second
derivatives vanish. -/
structure CellP (t : Th) (s : ℝ → Side) (hp : ℝ → Heat) (i : Nat) (x : ℝ) : Prop where
  rho : HasDerivAt (fun y => (s y).rho) (s x).drho x
  drho : HasDerivAt (fun y => (s y).drho) (t.base.d2rho i) x
  drhodT : HasDerivAt (fun y => (hp y).drhodT) 0 x
  S : HasDerivAt (fun y => (s y).S) (s x).dSdP x
  dS : HasDerivAt (fun y => (s y).dSdP) (t.base.d2S i) x
  dSdT : HasDerivAt (fun y => (hp y).dSdT) 0 x
  source : ∀ y, (hp y).source = (hp x).source
  rock : ∀ y, (hp y).rock = (hp x).rock
  T : ∀ y, (hp y).T = (hp x).T

/-- The internal energy: stored derivatives are right and do not change with the pressure. -/
structure EnergyP (hp : ℝ → Heat) (x : ℝ) : Prop where
  u : HasDerivAt (fun y => (hp y).u) (hp x).dudP x
  dudP : HasDerivAt (fun y => (hp y).dudP) 0 x
  dudT : HasDerivAt (fun y => (hp y).dudT) 0 x

/-- A cell whose stored derivatives with respect to the temperature are right, and whose second
derivatives vanish. -/
structure CellT (s : ℝ → Side) (hp : ℝ → Heat) (x : ℝ) : Prop where
  rho : HasDerivAt (fun y => (s y).rho) (hp x).drhodT x
  drho : HasDerivAt (fun y => (s y).drho) 0 x
  drhodT : HasDerivAt (fun y => (hp y).drhodT) 0 x
  S : HasDerivAt (fun y => (s y).S) (hp x).dSdT x
  dS : HasDerivAt (fun y => (s y).dSdP) 0 x
  dSdT : HasDerivAt (fun y => (hp y).dSdT) 0 x
  source : ∀ y, (hp y).source = (hp x).source
  rock : ∀ y, (hp y).rock = (hp x).rock
  T : ∀ y, (hp y).T = y

/-- The internal energy: stored derivatives are right and do not change with the temperature. -/
structure EnergyT (hp : ℝ → Heat) (x : ℝ) : Prop where
  u : HasDerivAt (fun y => (hp y).u) (hp x).dudT x
  dudP : HasDerivAt (fun y => (hp y).dudP) 0 x
  dudT : HasDerivAt (fun y => (hp y).dudT) 0 x

/-- The rates the time integrator passes when unknown `i` is moved to `x`: `a + shift*U`. -/
def rateAt (rate : Nat → ℝ) (shift : ℝ) (U : Nat → ℝ) (i : Nat) (x : ℝ) : Nat → ℝ :=
  wr rate i (rate i + shift*(x - U i))

theorem zero_lit : (0.0 : ℝ) = 0 := by norm_num

theorem along_phi (t : Th) (s : Nat → ℝ → Side) (hp : Nat → ℝ → Heat) (U : Nat → ℝ) (i : Nat) (x : ℝ) :
    AlongP (fun y => qtyPhi (thAt t s hp (wr U i y)) i) x ∧
    AlongT (fun y => qtyPhi (thAt t s hp (wr U i y)) i) x := by
  constructor <;> constructor <;> simp only [qtyPhi, zero_lit] <;> exact hasDerivAt_const _ _

theorem alongP_rho {t : Th} {s : Nat → ℝ → Side} {hp : Nat → ℝ → Heat} {U : Nat → ℝ} {i : Nat} {x : ℝ}
    (h : CellP t (s i) (hp i) i x) : AlongP (fun y => qtyRho (thAt t s hp (wr U i y)) i) x := by
  constructor <;> simp only [qtyRho, thAt, ctxAt, wr_same, zero_lit]
  exacts [h.rho, h.drho, h.drhodT]

theorem alongP_S {t : Th} {s : Nat → ℝ → Side} {hp : Nat → ℝ → Heat} {U : Nat → ℝ} {i : Nat} {x : ℝ}
    (h : CellP t (s i) (hp i) i x) : AlongP (fun y => qtyS (thAt t s hp (wr U i y)) i) x := by
  constructor <;> simp only [qtyS, thAt, ctxAt, wr_same, zero_lit]
  exacts [h.S, h.dS, h.dSdT]

theorem alongP_u {t : Th} {s : Nat → ℝ → Side} {hp : Nat → ℝ → Heat} {U : Nat → ℝ} {i : Nat} {x : ℝ}
    (h : EnergyP (hp i) x) : AlongP (fun y => qtyU (thAt t s hp (wr U i y)) i) x := by
  constructor <;> simp only [qtyU, thAt, ctxAt, wr_same, zero_lit]
  exacts [h.u, h.dudP, h.dudT]

theorem alongT_rho {t : Th} {s : Nat → ℝ → Side} {hp : Nat → ℝ → Heat} {U : Nat → ℝ} {i : Nat} {x : ℝ}
    (h : CellT (s i) (hp i) x) : AlongT (fun y => qtyRho (thAt t s hp (wr U i y)) i) x := by
  constructor <;> simp only [qtyRho, thAt, ctxAt, wr_same, zero_lit]
  exacts [h.rho, h.drho, h.drhodT]

theorem alongT_S {t : Th} {s : Nat → ℝ → Side} {hp : Nat → ℝ → Heat} {U : Nat → ℝ} {i : Nat} {x : ℝ}
    (h : CellT (s i) (hp i) x) : AlongT (fun y => qtyS (thAt t s hp (wr U i y)) i) x := by
  constructor <;> simp only [qtyS, thAt, ctxAt, wr_same, zero_lit]
  exacts [h.S, h.dS, h.dSdT]

theorem alongT_u {t : Th} {s : Nat → ℝ → Side} {hp : Nat → ℝ → Heat} {U : Nat → ℝ} {i : Nat} {x : ℝ}
    (h : EnergyT (hp i) x) : AlongT (fun y => qtyU (thAt t s hp (wr U i y)) i) x := by
  constructor <;> simp only [qtyU, thAt, ctxAt, wr_same, zero_lit]
  exacts [h.u, h.dudP, h.dudT]

theorem mass_coeffs (t : Th) (i : Nat) :
    thDmassdP t i = dmassP (qtyPhi t i) (qtyRho t i) (qtyS t i) ∧
    thDmassdT t i = dmassT (qtyPhi t i) (qtyRho t i) (qtyS t i) := by
  unfold thDmassdP thDmassdT dmassP dmassT qtyPhi qtyRho qtyS
  constructor
  · rfl
  · simp only [zero_lit]; ring

theorem energy_coeffs (t : Th) (i : Nat) :
    thDenergydP t i = denergyP (qtyPhi t i) (qtyRho t i) (qtyS t i) (qtyU t i) (t.heat i).rock (t.heat i).T ∧
    thDenergydT t i = denergyT (qtyPhi t i) (qtyRho t i) (qtyS t i) (qtyU t i) (t.heat i).rock (t.heat i).T := by
  unfold thDenergydP thDenergydT denergyP denergyT qtyPhi qtyRho qtyS qtyU
  constructor
  · rfl
  · simp only [show (1.0 : ℝ) = 1 by norm_num]

/-- The derivative of `(cP*rateP + cT*rateT - source)*vol` where one rate moves with the unknown. -/
theorem storage_deriv {cP cT src : ℝ → ℝ} {x cPd cTd pd Td shift vol : ℝ} (x0 : ℝ) (hx : x = x0)
    (h1 : HasDerivAt cP cPd x) (h2 : HasDerivAt cT cTd x) (h3 : ∀ y, src y = src x) :
    HasDerivAt (fun y => (cP y*(pd + shift*(y - x0)) + cT y*Td - src y)*vol)
      ((shift*cP x + cPd*pd + cTd*Td)*vol) x := by
  subst hx
  have e : (fun y => (cP y*(pd + shift*(y - x)) + cT y*Td - src y)*vol)
      = fun y => (cP y*(pd + shift*(y - x)) + cT y*Td - src x)*vol := by
    funext y; rw [h3 y]
  rw [e]
  have hr : HasDerivAt (fun y => pd + shift*(y - x)) shift x := by
    refine ((((hasDerivAt_id x).sub_const x).const_mul shift).const_add pd).congr_deriv ?_
    ring
  refine ((((h1.mul hr).add (h2.mul_const Td)).sub_const _).mul_const vol).congr_deriv ?_
  simp only [sub_self]; ring

theorem reached_at (t : Th) (s : Nat → ℝ → Side) (hp : Nat → ℝ → Heat) (U : Nat → ℝ) (j : Nat) :
    Reached (thAt t s hp U) j ↔ Reached t j := Iff.rfl

theorem storage_row (t : Th) (s : Nat → ℝ → Side) (hp : Nat → ℝ → Heat) (U dpdt dTdt : Nat → ℝ)
    {j : Nat} (hj : j < t.base.numCells) (hr : Reached t j) :
    thCellLoop (thAt t s hp U) dpdt dTdt (fun _ => 0) (2*j)
      = thStorageM (thAt t s hp U) dpdt dTdt j ∧
    thCellLoop (thAt t s hp U) dpdt dTdt (fun _ => 0) (2*j + 1)
      = thStorageE (thAt t s hp U) dpdt dTdt j := by
  obtain ⟨h1, h2⟩ := thCellLoop_apply (thAt t s hp U) dpdt dTdt (fun _ => 0) j
  rw [h1, h2, if_pos ⟨hj, hr⟩, if_pos ⟨hj, hr⟩]
  exact ⟨zero_add _, zero_add _⟩

/-- The rows of other cells do not move. -/
theorem storage_other (t : Th) (s : Nat → ℝ → Side) (hp : Nat → ℝ → Heat) (U dpdt dTdt : Nat → ℝ)
    (i j : Nat) (hij : j ≠ i) (x a b : ℝ) :
    thStorageM (thAt t s hp (wr U i x)) (wr dpdt i a) (wr dTdt i b) j
      = thStorageM (thAt t s hp U) dpdt dTdt j ∧
    thStorageE (thAt t s hp (wr U i x)) (wr dpdt i a) (wr dTdt i b) j
      = thStorageE (thAt t s hp U) dpdt dTdt j := by
  simp only [thStorageM, thStorageE, thDmassdP, thDmassdT, thDenergydP, thDenergydT, thAt, ctxAt,
    wr_other _ _ hij, and_self]

/-- Pressure columns of the assembled accumulation blocks: water rows always, energy rows if the internal
energy is as `EnergyP` says, are the derivatives of the accumulation part of the residual, with the rates
moving by `shift` as the time integrator prescribes. -/
theorem C129_pressure_columns_partial (t : Th) (s : Nat → ℝ → Side) (hp : Nat → ℝ → Heat)
    (U dpdt dTdt : Nat → ℝ) (shift : ℝ) (i j : Nat) (hi : i < t.base.numCells)
    (hj : j < t.base.numCells) (hl : ∀ k < t.base.numCells, t.base.isLocal k = true)
    (hc : CellP t (s i) (hp i) i (U i)) :
    let F := fun x => thCellLoop (thAt t s hp (wr U i x)) (rateAt dpdt shift U i x) dTdt (fun _ => 0)
    let J := thJacobianAccum (thAt t s hp U) dpdt dTdt shift (fun _ _ => ⟨0, 0, 0, 0⟩) j i
    HasDerivAt (fun x => F x (2*j)) J.mP (U i) ∧
    (EnergyP (hp i) (U i) → HasDerivAt (fun x => F x (2*j + 1)) J.eP (U i)) := by
  intro F J
  have hr : Reached t j := fun k hk => hl k (by omega)
  have e1 : ∀ x, F x (2*j) = thStorageM (thAt t s hp (wr U i x)) (rateAt dpdt shift U i x) dTdt j :=
    fun x => (storage_row t s hp _ _ _ hj hr).1
  have e2 : ∀ x, F x (2*j + 1) = thStorageE (thAt t s hp (wr U i x)) (rateAt dpdt shift U i x) dTdt j :=
    fun x => (storage_row t s hp _ _ _ hj hr).2
  have eT : dTdt = wr dTdt i (dTdt i) := by
    funext k; by_cases h : k = i
    · subst h; rw [wr_same]
    · rw [wr_other _ _ h]
  have eU : wr U i (U i) = U := by
    funext k; by_cases h : k = i
    · subst h; rw [wr_same]
    · rw [wr_other _ _ h]
  simp only [e1, e2]
  by_cases hij : j = i
  · subst hij
    have eJ : J = thAccumBlock (thAt t s hp U) dpdt dTdt shift j := by
      show thJacobianAccum _ _ _ _ _ _ _ = _
      rw [accum_apply, if_pos ⟨rfl, hi, hl _ hi⟩]
      rw [addBlock_at, if_pos ⟨rfl, rfl⟩]; simp
    have hm := C129_mass_along_pressure _ _ _ (U j) (along_phi t s hp U j (U j)).1 (alongP_rho (U := U) hc)
      (alongP_S (U := U) hc)
    rw [eJ]
    constructor
    · have := storage_deriv (U j) rfl hm.2.1 hm.2.2 (src := fun _ => t.base.source j) (fun _ => rfl)
        (pd := dpdt j) (Td := dTdt j) (shift := shift) (vol := t.base.vol j)
      simp only [eU] at this
      refine (this.congr_of_eventuallyEq (Filter.Eventually.of_forall fun x => ?_))
      simp only [thStorageM, rateAt, wr_same, (mass_coeffs _ _).1, (mass_coeffs _ _).2]
      rfl
    · intro hu
      have he := C129_energy_along_pressure _ _ _ _ (hp j (U j)).rock (hp j (U j)).T (U j)
        (along_phi t s hp U j (U j)).1 (alongP_rho (U := U) hc) (alongP_S (U := U) hc) (alongP_u (t := t) (s := s) (U := U) hu)
      have := storage_deriv (U j) rfl he.2.1 he.2.2 (src := fun _ => (hp j (U j)).source) (fun _ => rfl)
        (pd := dpdt j) (Td := dTdt j) (shift := shift) (vol := t.base.vol j)
      simp only [eU] at this
      refine (this.congr_of_eventuallyEq (Filter.Eventually.of_forall fun x => ?_))
      have r1 : ((thAt t s hp (wr U j x)).heat j).rock = (hp j (U j)).rock := by
        simp only [thAt, wr_same]; exact hc.rock x
      have r2 : ((thAt t s hp (wr U j x)).heat j).T = (hp j (U j)).T := by
        simp only [thAt, wr_same]; exact hc.T x
      have r3 : ((thAt t s hp (wr U j x)).heat j).source = (hp j (U j)).source := by
        simp only [thAt, wr_same]; exact hc.source x
      simp only [thStorageE, rateAt, wr_same, (energy_coeffs _ _).1, (energy_coeffs _ _).2, r1, r2, r3]
      rfl
  · have eJ : J = ⟨0, 0, 0, 0⟩ := by
      show thJacobianAccum _ _ _ _ _ _ _ = _
      rw [accum_apply, if_neg (fun h => hij h.1)]
    rw [eJ, eT]
    have o := fun x => storage_other t s hp U dpdt dTdt i j hij x (dpdt i + shift*(x - U i)) (dTdt i)
    simp only [rateAt, (o _).1, (o _).2]
    exact ⟨hasDerivAt_const _ _, fun _ => hasDerivAt_const _ _⟩

/-- Temperature columns. -/
theorem C129_temperature_columns_partial (t : Th) (s : Nat → ℝ → Side) (hp : Nat → ℝ → Heat)
    (U dpdt dTdt : Nat → ℝ) (shift : ℝ) (i j : Nat) (hi : i < t.base.numCells)
    (hj : j < t.base.numCells) (hl : ∀ k < t.base.numCells, t.base.isLocal k = true)
    (hc : CellT (s i) (hp i) (U i)) :
    let F := fun x => thCellLoop (thAt t s hp (wr U i x)) dpdt (rateAt dTdt shift U i x) (fun _ => 0)
    let J := thJacobianAccum (thAt t s hp U) dpdt dTdt shift (fun _ _ => ⟨0, 0, 0, 0⟩) j i
    HasDerivAt (fun x => F x (2*j)) J.mT (U i) ∧
    (EnergyT (hp i) (U i) → HasDerivAt (fun x => F x (2*j + 1)) J.eT (U i)) := by
  intro F J
  have hr : Reached t j := fun k hk => hl k (by omega)
  have e1 : ∀ x, F x (2*j) = thStorageM (thAt t s hp (wr U i x)) dpdt (rateAt dTdt shift U i x) j :=
    fun x => (storage_row t s hp _ _ _ hj hr).1
  have e2 : ∀ x, F x (2*j + 1) = thStorageE (thAt t s hp (wr U i x)) dpdt (rateAt dTdt shift U i x) j :=
    fun x => (storage_row t s hp _ _ _ hj hr).2
  have eT : dpdt = wr dpdt i (dpdt i) := by
    funext k; by_cases h : k = i
    · subst h; rw [wr_same]
    · rw [wr_other _ _ h]
  have eU : wr U i (U i) = U := by
    funext k; by_cases h : k = i
    · subst h; rw [wr_same]
    · rw [wr_other _ _ h]
  simp only [e1, e2]
  by_cases hij : j = i
  · subst hij
    have eJ : J = thAccumBlock (thAt t s hp U) dpdt dTdt shift j := by
      show thJacobianAccum _ _ _ _ _ _ _ = _
      rw [accum_apply, if_pos ⟨rfl, hi, hl _ hi⟩]
      rw [addBlock_at, if_pos ⟨rfl, rfl⟩]; simp
    have hm := C129_mass_along_temperature _ _ _ (U j) (along_phi t s hp U j (U j)).2 (alongT_rho (t := t) (U := U) hc)
      (alongT_S (t := t) (U := U) hc)
    rw [eJ]
    constructor
    · have := storage_deriv (U j) rfl hm.2.2 hm.2.1 (src := fun _ => t.base.source j) (fun _ => rfl)
        (pd := dTdt j) (Td := dpdt j) (shift := shift) (vol := t.base.vol j)
      simp only [eU] at this
      refine (this.congr_of_eventuallyEq (Filter.Eventually.of_forall fun x => ?_))
      simp only [thStorageM, rateAt, wr_same, (mass_coeffs _ _).1, (mass_coeffs _ _).2]
      rw [add_comm (dmassP _ _ _ * _)]
      rfl
    · intro hu
      have he := C129_energy_along_temperature _ _ _ _ (hp j (U j)).rock (U j)
        (along_phi t s hp U j (U j)).2 (alongT_rho (t := t) (U := U) hc) (alongT_S (t := t) (U := U) hc) (alongT_u (t := t) (s := s) (U := U) hu)
      have := storage_deriv (U j) rfl he.2.2 he.2.1 (src := fun _ => (hp j (U j)).source) (fun _ => rfl)
        (pd := dTdt j) (Td := dpdt j) (shift := shift) (vol := t.base.vol j)
      simp only [eU] at this
      have rT : ((thAt t s hp U).heat j).T = U j := by simp only [thAt]; exact hc.T _
      refine HasDerivAt.congr_deriv (this.congr_of_eventuallyEq (Filter.Eventually.of_forall fun x => ?_)) ?_
      · have r1 : ((thAt t s hp (wr U j x)).heat j).rock = (hp j (U j)).rock := by
          simp only [thAt, wr_same]; exact hc.rock x
        have r2 : ((thAt t s hp (wr U j x)).heat j).T = x := by
          simp only [thAt, wr_same]; exact hc.T x
        have r3 : ((thAt t s hp (wr U j x)).heat j).source = (hp j (U j)).source := by
          simp only [thAt, wr_same]; exact hc.source x
        simp only [thStorageE, rateAt, wr_same, (energy_coeffs _ _).1, (energy_coeffs _ _).2, r1, r2, r3]
        rw [add_comm (denergyP _ _ _ _ _ _ * _)]
        rfl
      · simp only [thAccumBlock, rT]
        rfl
  · have eJ : J = ⟨0, 0, 0, 0⟩ := by
      show thJacobianAccum _ _ _ _ _ _ _ = _
      rw [accum_apply, if_neg (fun h => hij h.1)]
    rw [eJ, eT]
    have o := fun x => storage_other t s hp U dpdt dTdt i j hij x (dpdt i) (dTdt i + shift*(x - U i))
    simp only [rateAt, (o _).1, (o _).2]
    exact ⟨hasDerivAt_const _ _, fun _ => hasDerivAt_const _ _⟩

/-- A cell of porous material whose saturation is its pressure and whose density grows with it. -/
def hpC (_ : Nat) (_ : ℝ) : Heat := HeatWitness.heat

theorem cellP_witness (x : ℝ) : CellP HeatWitness.t wState (hpC 0) 0 x ∧ EnergyP (hpC 0) x :=
  ⟨⟨((hasDerivAt_id x).const_add 1).congr_deriv (by simp [wState]), hasDerivAt_const _ _,
    hasDerivAt_const _ _, (hasDerivAt_id x).congr_deriv (by simp [wState]), hasDerivAt_const _ _,
    hasDerivAt_const _ _, fun _ => rfl, fun _ => rfl, fun _ => rfl⟩,
    ⟨(hasDerivAt_const _ _).congr_deriv (by simp [hpC, HeatWitness.heat]), hasDerivAt_const _ _,
      hasDerivAt_const _ _⟩⟩

/-- Not trivial: at pressure 5, rate 3 and shift 2, the first entry is `2*(por*(1 + 2*5)) + 2*por*3`
times the volume 2. -/
example : (thJacobianAccum (thAt HeatWitness.t (fun _ => wState) hpC wU) (fun _ => 3) (fun _ => 4) 2
    (fun _ _ => ⟨0, 0, 0, 0⟩) 0 0).mP = 56 := by
  rw [accum_apply, if_pos ⟨rfl, by decide, rfl⟩, addBlock_at, if_pos ⟨rfl, rfl⟩]
  simp only [thAccumBlock, dmassP, d2massPP, d2massPT, qtyPhi, qtyRho, qtyS, thAt, ctxAt, hpC, wState,
    HeatWitness.t, HeatWitness.heat, FluxWitness.c, wU, zero_lit]
  norm_num

/-- The temperature only enters the rock. -/
theorem cellT_witness (x : ℝ) : CellT (fun _ => FluxWitness.s 5) (fun y => { HeatWitness.heat with T := y, h := y }) x ∧
    EnergyT (fun y => { HeatWitness.heat with T := y, h := y }) x :=
  ⟨⟨hasDerivAt_const _ _, hasDerivAt_const _ _, hasDerivAt_const _ _, hasDerivAt_const _ _,
    hasDerivAt_const _ _, hasDerivAt_const _ _, fun _ => rfl, fun _ => rfl, fun _ => rfl⟩,
    ⟨hasDerivAt_const _ _, hasDerivAt_const _ _, hasDerivAt_const _ _⟩⟩

/-- The internal energy of the code: enthalpy minus pressure over density (here 1). Its derivatives
are never stored. -/
def hpU (_ : Nat) (x : ℝ) : Heat := { HeatWitness.heat with u := 1.8890 - x/1 }

/-- Saturation equal to the pressure, density 1. -/
def sU (_ : Nat) (x : ℝ) : Side :=
  { P := x, S := x, Kr := 1, vis := 1, rho := 1, dSdP := 1, dKrdS := 0, dvis := 0, drho := 0 }

/-- The energy row is not the derivative when the internal energy is the code's own: `du_dP` is
allocated and never written. -/
theorem C129_violated : ∃ (t : Th) (s : Nat → ℝ → Side) (hp : Nat → ℝ → Heat) (U dpdt dTdt : Nat → ℝ)
    (shift : ℝ), (∀ k < t.base.numCells, t.base.isLocal k = true) ∧ 0 < t.base.numCells ∧
    CellP t (s 0) (hp 0) 0 (U 0) ∧ (∀ x, (hp 0 x).u = 1.8890 - x/(s 0 x).rho) ∧
    (∀ x, (hp 0 x).dudP = 0) ∧
    ¬ HasDerivAt (fun x => thCellLoop (thAt t s hp (wr U 0 x)) (rateAt dpdt shift U 0 x) dTdt
        (fun _ => 0) (2*0 + 1))
      (thJacobianAccum (thAt t s hp U) dpdt dTdt shift (fun _ _ => ⟨0, 0, 0, 0⟩) 0 0).eP (U 0) := by
  refine ⟨HeatWitness.t, sU, hpU, fun _ => 0, fun _ => 1, fun _ => 0, 0, fun _ _ => rfl, by decide,
    ⟨hasDerivAt_const _ _, hasDerivAt_const _ _, hasDerivAt_const _ _, hasDerivAt_id _,
      hasDerivAt_const _ _, hasDerivAt_const _ _, fun _ => rfl, fun _ => rfl, fun _ => rfl⟩,
    fun _ => rfl, fun _ => rfl, fun h => ?_⟩
  obtain ⟨a, ha⟩ : ∃ a : ℝ, a = 1.8890 := ⟨_, rfl⟩
  have e : (fun x => thCellLoop (thAt HeatWitness.t sU hpU (wr (fun _ => 0) 0 x))
      (rateAt (fun _ => 1) 0 (fun _ => 0) 0 x) (fun _ => 0) (fun _ => 0) (2*0 + 1))
      = fun x => (a - x - 7)*2 := by
    funext x
    rw [(storage_row _ _ _ _ _ _ (by decide) (fun _ _ => rfl)).2]
    simp only [thStorageE, thDenergydP, thDenergydT, thAt, ctxAt, wr_same, rateAt, sU, hpU,
      HeatWitness.t, HeatWitness.heat, FluxWitness.c, zero_lit, ← ha,
      show (1.0 : ℝ) = 1 by norm_num]
    ring
  have j : (thJacobianAccum (thAt HeatWitness.t sU hpU fun _ => 0) (fun _ => 1) (fun _ => 0) 0
      (fun _ _ => ⟨0, 0, 0, 0⟩) 0 0).eP = 0 := by
    rw [accum_apply, if_pos ⟨rfl, by decide, rfl⟩, addBlock_at, if_pos ⟨rfl, rfl⟩]
    simp only [thAccumBlock, denergyP, d2energyPP, d2energyPT, qtyPhi, qtyRho, qtyS, qtyU, thAt, ctxAt,
      sU, hpU, HeatWitness.t, HeatWitness.heat, FluxWitness.c, zero_lit, ← ha]
    ring
  rw [e, j] at h
  have h' : HasDerivAt (fun x : ℝ => (a - x - 7)*2) (-2) 0 :=
    ((((hasDerivAt_id (0:ℝ)).const_sub a).sub_const 7).mul_const 2).congr_deriv (by ring)
  have := h.unique h'
  norm_num at this

/-! # C130: the accumulation terms of the TH residual are the rates of change of water and energy -/

/-- Along the history `t` of contexts, at time `tau`, density and saturation of cell `i` change as their
stored derivatives and the rates passed to the residual say; the material does not change. -/
structure History (t : ℝ → Th) (dpdt dTdt : Nat → ℝ) (i : Nat) (tau : ℝ) : Prop where
  vol : ∀ y, (t y).base.vol i = (t tau).base.vol i
  por : ∀ y, (t y).base.por i = (t tau).base.por i
  rock : ∀ y, ((t y).heat i).rock = ((t tau).heat i).rock
  rho : HasDerivAt (fun y => ((t y).base.cells i).rho)
    (((t tau).base.cells i).drho*dpdt i + ((t tau).heat i).drhodT*dTdt i) tau
  S : HasDerivAt (fun y => ((t y).base.cells i).S)
    (((t tau).base.cells i).dSdP*dpdt i + ((t tau).heat i).dSdT*dTdt i) tau
  T : HasDerivAt (fun y => ((t y).heat i).T) (dTdt i) tau

/-- Mass of water in a cell. -/
def cellWater (t : Th) (i : Nat) : ℝ :=
  t.base.por i*(t.base.cells i).rho*(t.base.cells i).S*t.base.vol i

/-- Energy in a cell: of the water and of the rock. -/
def cellEnergy (t : Th) (i : Nat) : ℝ :=
  (t.base.por i*(t.base.cells i).rho*(t.base.cells i).S*(t.heat i).u
    + (1 - t.base.por i)*(t.heat i).rock*(t.heat i).T)*t.base.vol i

/-- The water row of the residual, without fluxes, is the rate of change of the water in the cell minus
its source. The energy row misses exactly the part of the rate of the internal energy that the stored
derivatives do not have. -/
theorem C130_rates_partial (t : ℝ → Th) (dpdt dTdt : Nat → ℝ) (i : Nat) (tau : ℝ)
    (h : History t dpdt dTdt i tau) (hi : i < (t tau).base.numCells)
    (hl : ∀ k < (t tau).base.numCells, (t tau).base.isLocal k = true) :
    HasDerivAt (fun y => cellWater (t y) i)
      (thCellLoop (t tau) dpdt dTdt (fun _ => 0) (2*i) + (t tau).base.source i*(t tau).base.vol i) tau ∧
    ∀ u', HasDerivAt (fun y => ((t y).heat i).u) u' tau →
      HasDerivAt (fun y => cellEnergy (t y) i)
        (thCellLoop (t tau) dpdt dTdt (fun _ => 0) (2*i + 1) + ((t tau).heat i).source*(t tau).base.vol i
          + (t tau).base.por i*((t tau).base.cells i).rho*((t tau).base.cells i).S*(t tau).base.vol i
            *(u' - (((t tau).heat i).dudP*dpdt i + ((t tau).heat i).dudT*dTdt i))) tau := by
  have hr : Reached (t tau) i := fun k hk => hl k (by omega)
  obtain ⟨e1, e2⟩ := thCellLoop_apply (t tau) dpdt dTdt (fun _ => 0) i
  rw [e1, e2, if_pos ⟨hi, hr⟩, if_pos ⟨hi, hr⟩]
  constructor
  · have : (fun y => cellWater (t y) i) = fun y => (t tau).base.por i*((t y).base.cells i).rho
        *((t y).base.cells i).S*(t tau).base.vol i := by
      funext y; unfold cellWater; rw [h.vol, h.por]
    rw [this]
    refine (((h.rho.const_mul _).mul h.S).mul_const _).congr_deriv ?_
    simp only [thStorageM, thDmassdP, thDmassdT, zero_lit]
    ring
  · intro u' hu
    have : (fun y => cellEnergy (t y) i) = fun y => ((t tau).base.por i*((t y).base.cells i).rho
        *((t y).base.cells i).S*((t y).heat i).u
        + (1 - (t tau).base.por i)*((t tau).heat i).rock*((t y).heat i).T)*(t tau).base.vol i := by
      funext y; unfold cellEnergy; rw [h.vol, h.por, h.rock]
    rw [this]
    refine (((((h.rho.const_mul _).mul h.S).mul hu).add (h.T.const_mul _)).mul_const _).congr_deriv ?_
    simp only [thStorageE, thDenergydP, thDenergydT, zero_lit, show (1.0 : ℝ) = 1 by norm_num,
      Pi.mul_apply]
    ring

/-- The internal energy of the code's own states is enthalpy minus pressure over density
(`C122_cells_follow_unknowns`), and its derivatives stay 0: whenever the pressure of a cell with water
of constant density and constant enthalpy changes, the energy row is not the rate of change of the
energy. -/
theorem C130_violated (t : ℝ → Th) (dpdt dTdt : Nat → ℝ) (i : Nat) (tau hconst : ℝ)
    (h : History t dpdt dTdt i tau) (hi : i < (t tau).base.numCells)
    (hl : ∀ k < (t tau).base.numCells, (t tau).base.isLocal k = true)
    (hP : HasDerivAt (fun y => ((t y).base.cells i).P) (dpdt i) tau)
    (hrho : ∀ y, ((t y).base.cells i).rho = ((t tau).base.cells i).rho)
    (hu : ∀ y, ((t y).heat i).u = hconst - ((t y).base.cells i).P/((t y).base.cells i).rho)
    (h0 : ((t tau).heat i).dudP = 0 ∧ ((t tau).heat i).dudT = 0)
    (hr : 0 < ((t tau).base.cells i).rho) (hS : 0 < ((t tau).base.cells i).S)
    (hp : 0 < (t tau).base.por i) (hv : 0 < (t tau).base.vol i) (hd : dpdt i ≠ 0) :
    ¬ HasDerivAt (fun y => cellEnergy (t y) i)
      (thCellLoop (t tau) dpdt dTdt (fun _ => 0) (2*i + 1) + ((t tau).heat i).source*(t tau).base.vol i)
      tau := by
  intro hh
  have eu : (fun y => ((t y).heat i).u)
      = fun y => hconst - ((t y).base.cells i).P/((t tau).base.cells i).rho := by
    funext y; rw [hu, hrho]
  have hu' : HasDerivAt (fun y => ((t y).heat i).u) (-(dpdt i/((t tau).base.cells i).rho)) tau := by
    rw [eu]; exact (hP.div_const _).const_sub _
  have := hh.unique ((C130_rates_partial t dpdt dTdt i tau h hi hl).2 _ hu')
  rw [h0.1, h0.2] at this
  have z : (t tau).base.por i*((t tau).base.cells i).rho*((t tau).base.cells i).S*(t tau).base.vol i
      *(-(dpdt i/((t tau).base.cells i).rho) - (0*dpdt i + 0*dTdt i)) = 0 := by linarith
  have hr' := hr.ne'
  have : (t tau).base.por i*((t tau).base.cells i).S*(t tau).base.vol i*dpdt i = 0 := by
    have e : (t tau).base.por i*((t tau).base.cells i).rho*((t tau).base.cells i).S*(t tau).base.vol i
      *(-(dpdt i/((t tau).base.cells i).rho) - (0*dpdt i + 0*dTdt i))
      = -((t tau).base.por i*((t tau).base.cells i).S*(t tau).base.vol i*dpdt i) := by
      field_simp; ring
    rw [e] at z; linarith
  exact (mul_ne_zero (mul_pos (mul_pos hp hS) hv).ne' hd) this

/-- A saturated cell whose pressure rises with time, and warms. -/
def hist (tau : ℝ) : Th :=
  thAt HeatWitness.t (fun _ x => FluxWitness.s x)
    (fun _ x => { HeatWitness.heat with u := 1.8890 - x/1, T := 2*x }) (fun _ => tau)

/-- It satisfies the hypotheses of both theorems. -/
theorem hist_history : History hist (fun _ => 1) (fun _ => 2) 0 3 := by
  refine ⟨fun _ => rfl, fun _ => rfl, fun _ => rfl, ?_, ?_, ?_⟩
  · exact (hasDerivAt_const _ _).congr_deriv (by
      simp [hist, thAt, ctxAt, FluxWitness.s, HeatWitness.heat])
  · exact (hasDerivAt_const _ _).congr_deriv (by
      simp [hist, thAt, ctxAt, FluxWitness.s, HeatWitness.heat])
  · exact ((hasDerivAt_id (3:ℝ)).const_mul 2).congr_deriv (by ring)

example : ¬ HasDerivAt (fun y => cellEnergy (hist y) 0)
    (thCellLoop (hist 3) (fun _ => 1) (fun _ => 2) (fun _ => 0) (2*0 + 1) + 7*2) 3 :=
  C130_violated hist _ _ 0 3 1.8890 hist_history (by decide) (fun _ _ => rfl) (hasDerivAt_id _)
    (fun _ => rfl) (fun _ => rfl) ⟨rfl, rfl⟩ (by simp [hist, thAt, ctxAt, FluxWitness.s])
    (by simp [hist, thAt, ctxAt, FluxWitness.s]) (by simp [hist, thAt, ctxAt, HeatWitness.t, FluxWitness.c])
    (by simp [hist, thAt, ctxAt, HeatWitness.t, FluxWitness.c]) (by norm_num)

end

end TDy.Mpfao.Props
