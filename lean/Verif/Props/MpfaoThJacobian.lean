import Verif.Props.MpfaoCoupled
import Verif.Props.MpfaoJacobian

/-!
# C55, C98: the Jacobian of the TH mode

`U j` is either the pressure or the temperature of cell `j`, the other one is kept; `s j x` and
`hp j x` are the state of cell `j` at the value `x`.
-/

namespace TDy.Mpfao.Props

open TDy.Mpfao TDy.Mpfao.Spec TDy.Mpfao.Proofs Finset
open TDy.Fvtpf (Side Bc)
open TDy.Fvtpf.Spec (Smooth)

noncomputable section

/-! ## Boundary subfaces -/

theorem thUp_of_dn_bnd (f : MFace) (hd : f.dn < 0) (hu : 0 ≤ f.up) :
    thUp f = f.up ∧ thDn f = f.up := by
  have : ¬ f.up < 0 := by omega
  simp [thUp, thDn, this, hd]

theorem thUp_of_up_bnd (f : MFace) (hu : f.up < 0) (hd : 0 ≤ f.dn) :
    thUp f = f.dn ∧ thDn f = f.dn := by
  have : ¬ f.dn < 0 := by omega
  simp [thUp, thDn, this, hu]

theorem addBlock_cancel (A : Nat → Nat → Block) (row : ℤ) (col : Nat) (b : Block) :
    addBlock (addBlock A row col b) row col (b.map fun x => -x) = A := by
  funext a k
  unfold addBlock Block.map
  by_cases h : (a : ℤ) = row ∧ k = col
  · simp [h]
  · simp [h]

/-- A boundary subface contributes nothing to the Jacobian: its block is added to the row of its
cell and then subtracted from it. -/
theorem C55_boundary_lost (t : Th) (v i k : Nat) (A : Nat → Nat → Block)
    (hb : ((faceOf t.base v i).up < 0 ∧ 0 ≤ (faceOf t.base v i).dn) ∨
      ((faceOf t.base v i).dn < 0 ∧ 0 ≤ (faceOf t.base v i).up)) :
    thColumn t v i k A = A := by
  have e : thUp (faceOf t.base v i) = thDn (faceOf t.base v i) := by
    rcases hb with ⟨h1, h2⟩ | ⟨h1, h2⟩
    · rw [(thUp_of_up_bnd _ h1 h2).1, (thUp_of_up_bnd _ h1 h2).2]
    · rw [(thUp_of_dn_bnd _ h1 h2).1, (thUp_of_dn_bnd _ h1 h2).2]
  unfold thColumn
  dsimp only
  change (if t.base.isLocal (thDn (faceOf t.base v i)).toNat = true then
    addBlock (if t.base.isLocal (thUp (faceOf t.base v i)).toNat = true then
      addBlock A (thUp (faceOf t.base v i)) _ _ else A) (thDn (faceOf t.base v i)) _ _
    else (if t.base.isLocal (thUp (faceOf t.base v i)).toNat = true then
      addBlock A (thUp (faceOf t.base v i)) _ _ else A)) = A
  rw [e]
  by_cases hl : t.base.isLocal (thDn (faceOf t.base v i)).toNat = true
  · rw [if_pos hl, if_pos hl, addBlock_cancel]
  · rw [if_neg hl, if_neg hl]

/-- Corner vertices contribute nothing to the Jacobian either. -/
theorem C55_corner_lost (t : Th) (A : Nat → Nat → Block) (hc : ∀ v, t.corner v = true) :
    thJacobianVertices t A = A := by
  unfold thJacobianVertices
  have : ∀ n, forN n (fun v A =>
      if t.corner v = true then A
      else forN (t.base.vert v).nRows (fun i A =>
        forN (t.base.vert v).nCells (fun k A => thColumn t v i k A) A) A) A = A := by
    intro n
    induction n with
    | zero => rfl
    | succ n ih => simp only [forN, hc, if_true]; exact (by simpa [hc] using ih)
  exact this _

/-! ## Derivatives of the fluxes -/

/-- The TH context in which cell `j` has the state `s j`, `hp j` at `U j`. -/
def thAt (t : Th) (s : Nat → ℝ → Side) (hp : Nat → ℝ → Heat) (U : Nat → ℝ) : Th :=
  { t with base := ctxAt t.base s U, heat := fun j => hp j (U j) }

/-- Derivatives of the state of cell `b` with respect to its own value: density, mobility,
enthalpy. -/
structure CellDeriv (s : ℝ → Side) (hp : ℝ → Heat) (x0 rho' mob' h' : ℝ) : Prop where
  rho : HasDerivAt (fun x => (s x).rho) rho' x0
  mob : HasDerivAt (fun x => (s x).Kr/(s x).vis) mob' x0
  h : HasDerivAt (fun x => (hp x).h) h' x0

theorem sideProp_hasDerivAt (c : Ctx) (s : Nat → ℝ → Side) (U : Nat → ℝ) (b : Nat) (id : ℤ)
    (g : Side → ℝ) (d : ℝ) (hd : HasDerivAt (fun x => g (s b x)) d (U b)) :
    HasDerivAt (fun x => g (side (ctxAt c s (Function.update U b x)) id))
      (if id = b then d else 0) (U b) := by
  by_cases h : id = b
  · subst h
    simp only [side_self, if_true]
    exact hd
  · simp only [side_const c s U b _ id h, h, if_false]
    exact hasDerivAt_const _ _

theorem hSide_hasDerivAt (t : Th) (s : Nat → ℝ → Side) (hp : Nat → ℝ → Heat) (U : Nat → ℝ) (b : Nat)
    (id : ℤ) (d : ℝ) (hd : HasDerivAt (fun x => (hp b x).h) d (U b)) :
    HasDerivAt (fun x => hSide (thAt t s hp (Function.update U b x)) id)
      (if id = b then d else 0) (U b) := by
  by_cases h : id = b
  · subst h
    have e : ∀ x, hSide (thAt t s hp (Function.update U b x)) (b:ℤ) = (hp b x).h := by
      intro x; unfold hSide thAt; simp
    simp only [e, if_true]
    exact hd
  · have e : ∀ x, hSide (thAt t s hp (Function.update U b x)) id = hSide (thAt t s hp U) id := by
      intro x
      unfold hSide thAt
      dsimp only
      split
      · rw [Function.update_of_ne (by omega)]
      · rfl
    simp only [e, h, if_false]
    exact hasDerivAt_const _ _

theorem chop_eventually (eps : ℝ) (f : ℝ → ℝ) (x0 : ℝ) (hc : ContinuousAt f x0)
    (h : eps < |f x0|) : ∀ᶠ x in nhds x0, chop eps (f x) = f x := by
  have := (hc.abs).eventually (lt_mem_nhds h)
  filter_upwards [this] with x hx
  unfold chop
  rw [if_neg (not_lt.2 (le_of_lt hx))]

theorem chop_big (eps x : ℝ) (h : eps < |x|) : chop eps x = x := by
  unfold chop
  rw [if_neg (not_lt.2 (le_of_lt h))]

/-- Cleaning up changes a value by less than the threshold. -/
theorem chop_close (eps x : ℝ) (he : 0 < eps) : |chop eps x - x| < eps := by
  unfold chop
  split
  · rename_i h
    rw [show (0.0:ℝ) - x = -x by norm_num, abs_neg]; exact h
  · simpa using he

/-- Derivative of the two fluxes through a subface, away from a change of the direction of flow. -/
theorem thFlux_hasDerivAt (t : Th) (s : Nat → ℝ → Side) (hp : Nat → ℝ → Heat) (U : Nat → ℝ)
    (v i b : Nat) (tp' temp' rho' mob' h' : ℝ) (heps : 0 < t.eps)
    (htp : HasDerivAt (fun x => ttimesP (ctxAt t.base s (Function.update U b x))
      (slot (t.base.vert v) i)) tp' (U b))
    (htemp : HasDerivAt (fun x => thTempTP (thAt t s hp (Function.update U b x)) v i) temp' (U b))
    (cd : CellDeriv (s b) (hp b) (U b) rho' mob' h')
    (hbig : t.eps < |ttimesP (ctxAt t.base s U) (slot (t.base.vert v) i)|)
    (hne : (faceOf t.base v i).up ≠ (faceOf t.base v i).dn) :
    let f := faceOf t.base v i
    let c := ctxAt t.base s U
    let TP := ttimesP c (slot (t.base.vert v) i)
    let den' := if f.up = b ∨ f.dn = b then 0.5*rho' else 0
    let mob'' := if (if TP < 0 then f.up else f.dn) = b then mob' else 0
    let h'' := if (if TP < 0 then f.up else f.dn) = b then h' else 0
    let den := denAvg c f
    let uk := ukvrTP c f TP
    let uh := uhTP (thAt t s hp U) f TP
    HasDerivAt (fun x => thFluxm (thAt t s hp (Function.update U b x)) v i)
      (-(den'*uk*TP + den*mob''*TP + den*uk*tp')) (U b) ∧
    HasDerivAt (fun x => thFluxe (thAt t s hp (Function.update U b x)) v i)
      (-(den'*uk*TP*uh + den*mob''*TP*uh + den*uk*tp'*uh + den*uk*TP*h'') - temp') (U b) := by
  intro f c TP den' mob'' h'' den uk uh
  have hU := update_self' U b
  set tp := fun x => ttimesP (ctxAt t.base s (Function.update U b x)) (slot (t.base.vert v) i)
    with etp
  have tp0 : tp (U b) = TP := by rw [etp]; simp only [hU]; rfl
  have z : (0.0:ℝ) = 0 := by norm_num
  have ev1 := chop_eventually t.eps tp (U b) htp.continuousAt (by rw [tp0]; exact hbig)
  -- average density
  have hden : HasDerivAt (fun x => denAvg (ctxAt t.base s (Function.update U b x)) f) den' (U b) := by
    unfold denAvg
    have h1 := sideProp_hasDerivAt t.base s U b f.up (fun s => s.rho) rho' cd.rho
    have h2 := sideProp_hasDerivAt t.base s U b f.dn (fun s => s.rho) rho' cd.rho
    refine (((hasDerivAt_const (U b) (0.0:ℝ)).add h1).add h2 |>.mul_const (0.5:ℝ)).congr_deriv ?_
    change _ = if f.up = b ∨ f.dn = b then 0.5*rho' else 0
    by_cases e1 : f.up = b
    · have e2 : ¬ f.dn = b := fun e => hne (e1.trans e.symm)
      simp [e1, e2]; ring
    · by_cases e2 : f.dn = b
      · simp [e1, e2]; ring
      · simp [e1, e2]
  have den0 : denAvg (ctxAt t.base s (Function.update U b (U b))) f = den := by rw [hU]
  have hTP0 : TP ≠ 0 := by
    intro e
    have : t.eps < |TP| := hbig
    rw [e, abs_zero] at this
    linarith
  -- everything once the upwind side is known
  have fin : ∀ id : ℤ, (if TP < 0 then f.up else f.dn) = id →
      (∀ᶠ x in nhds (U b), ukvrTP (ctxAt t.base s (Function.update U b x)) f (tp x) =
        (side (ctxAt t.base s (Function.update U b x)) id).Kr/
        (side (ctxAt t.base s (Function.update U b x)) id).vis ∧
        uhTP (thAt t s hp (Function.update U b x)) f (tp x) =
        hSide (thAt t s hp (Function.update U b x)) id) →
      HasDerivAt (fun x => thFluxm (thAt t s hp (Function.update U b x)) v i)
        (-(den'*uk*TP + den*mob''*TP + den*uk*tp')) (U b) ∧
      HasDerivAt (fun x => thFluxe (thAt t s hp (Function.update U b x)) v i)
        (-(den'*uk*TP*uh + den*mob''*TP*uh + den*uk*tp'*uh + den*uk*TP*h'') - temp') (U b) := by
    intro id hid ev2
    have hmob := sideProp_hasDerivAt t.base s U b id (fun s => s.Kr/s.vis) mob' cd.mob
    have hh := hSide_hasDerivAt t s hp U b id h' cd.h
    have uk0 : (side (ctxAt t.base s (Function.update U b (U b))) id).Kr/
        (side (ctxAt t.base s (Function.update U b (U b))) id).vis = uk := by
      have := ev2.self_of_nhds
      rw [← this.1, hU, tp0]
    have uh0 : hSide (thAt t s hp (Function.update U b (U b))) id = uh := by
      have := ev2.self_of_nhds
      rw [← this.2, hU, tp0]
    have m0 : (if id = b then mob' else 0) = mob'' := by rw [← hid]
    have h0 : (if id = b then h' else 0) = h'' := by rw [← hid]
    have Dm := hden.mul (hmob.mul htp.neg)
    have De := (Dm.mul hh).add htemp.neg
    constructor
    · refine (Dm.congr_of_eventuallyEq ?_).congr_deriv ?_
      · filter_upwards [ev1, ev2] with x hx hx2
        have e : thTP (thAt t s hp (Function.update U b x)) v i = tp x := hx
        unfold thFluxm
        dsimp only
        rw [e]
        exact congrArg (fun y => denAvg (ctxAt t.base s (Function.update U b x)) f*(y*(-tp x))) hx2.1
      · change den'*(_*(-tp (U b))) + _ = _
        simp only [Pi.mul_apply, Pi.neg_apply]
        rw [m0, uk0, den0, tp0]
        ring
    · refine (De.congr_of_eventuallyEq ?_).congr_deriv ?_
      · filter_upwards [ev1, ev2] with x hx hx2
        have e : thTP (thAt t s hp (Function.update U b x)) v i = tp x := hx
        unfold thFluxe
        dsimp only
        rw [e]
        have a1 := hx2.1
        have a2 := hx2.2
        change denAvg (ctxAt t.base s (Function.update U b x)) f*
          (ukvrTP (ctxAt t.base s (Function.update U b x)) f (tp x)*(-tp x))*
          uhTP (thAt t s hp (Function.update U b x)) f (tp x) + _ = _
        rw [a1, a2]
        rfl
      · simp only [Pi.mul_apply, Pi.neg_apply]
        rw [m0, h0, uk0, uh0, den0, tp0]
        ring
  rcases lt_or_gt_of_ne hTP0 with hneg | hpos
  · refine fin f.up (if_pos hneg) ?_
    have : ∀ᶠ x in nhds (U b), tp x < 0 :=
      htp.continuousAt.eventually (gt_mem_nhds (by rw [tp0]; exact hneg))
    filter_upwards [this] with x hx
    unfold ukvrTP uhTP
    rw [z, if_pos hx, if_pos hx]
    exact ⟨rfl, rfl⟩
  · have hn : ¬ TP < 0 := not_lt.2 (le_of_lt hpos)
    refine fin f.dn (if_neg hn) ?_
    have : ∀ᶠ x in nhds (U b), 0 < tp x :=
      htp.continuousAt.eventually (lt_mem_nhds (by rw [tp0]; exact hpos))
    filter_upwards [this] with x hx
    have hx' : ¬ tp x < 0 := not_lt.2 (le_of_lt hx)
    unfold ukvrTP uhTP
    rw [z, if_neg hx', if_neg hx']
    exact ⟨rfl, rfl⟩

/-! ## The blocks of an internal subface -/

/-- The derivative of the average density, with `rho'` for the cell. -/
def dDen (f : MFace) (b : Nat) (rho' : ℝ) : ℝ := if f.up = b ∨ f.dn = b then 0.5*rho' else 0

/-- A derivative of the upwind side, with `d` for the cell. -/
def dUpw (f : MFace) (TP : ℝ) (b : Nat) (d : ℝ) : ℝ :=
  if (if TP < 0 then f.up else f.dn) = b then d else 0

theorem thBlock_internal (t : Th) (f : MFace) (TP T tT : ℝ) (b : Nat) (hu : 0 ≤ f.up)
    (hd : 0 ≤ f.dn) (hne : f.up ≠ f.dn) :
    let den := denAvg t.base f
    let uk := ukvrTP t.base f TP
    let uh := uhTP t f TP
    let gz := (t.heat b).gz
    let rP := dDen f b (t.base.cells b).drho
    let rT := dDen f b (t.heat b).drhodT
    let kP := dUpw f TP b (dukvrCell (t.base.cells b))
    let kT := dUpw f TP b (dukvrT (t.base.cells b) (t.heat b))
    let hP := dUpw f TP b (t.heat b).dhdP
    let hT := dUpw f TP b (t.heat b).dhdT
    let on : ℝ := if f.up = b ∨ f.dn = b then 1 else 0
    thBlock t f TP T tT b =
      { mP := rP*uk*TP + den*kP*TP + den*uk*T*(1 + rP*gz)
        mT := rT*uk*TP + den*kT*TP + on*(den*uk*T*(1 + rT*gz))
        eP := rP*uk*TP*uh + den*kP*TP*uh + den*uk*T*(1 + rP*gz)*uh + den*uk*TP*hP
        eT := rT*uk*TP*uh + den*kT*TP*uh + on*(den*uk*T*(1 + rT*gz)*uh) + den*uk*TP*hT + tT } := by
  intro den uk uh gz rP rT kP kT hP hT on
  have z : (0.0:ℝ) = 0 := by norm_num
  have one : (1.0:ℝ) = 1 := by norm_num
  have up : thUp f = f.up := by unfold thUp; rw [if_neg (by omega)]
  have dn : thDn f = f.dn := by unfold thDn; rw [if_neg (by omega)]
  unfold thBlock
  simp only [up, dn, z, one]
  by_cases e1 : f.up = b
  · have e2 : ¬ f.dn = b := fun e => hne (e1.trans e.symm)
    have c1 : f.up > -1 ∧ (b:ℤ) = f.up := ⟨by omega, e1.symm⟩
    have eb : f.up.toNat = b := by omega
    rw [if_pos c1]
    simp only [thAdvect, eb]
    simp only [rP, rT, kP, kT, hP, hT, on, dDen, dUpw, e1, e2, true_or, if_true, one]
    have hb : (0:ℤ) ≤ (b:ℤ) := by omega
    by_cases hT : TP < 0
    · simp only [hT, hb, if_true, and_self]
      congr 1 <;> ring
    · simp only [hT, false_and, if_false, e2]
      congr 1 <;> ring
  · have c1 : ¬ (f.up > -1 ∧ (b:ℤ) = f.up) := fun h => e1 h.2.symm
    rw [if_neg c1]
    by_cases e2 : f.dn = b
    · have c3 : f.dn > -1 ∧ (b:ℤ) = f.dn := ⟨by omega, e2.symm⟩
      have eb : f.dn.toNat = b := by omega
      rw [if_pos c3]
      simp only [thAdvect, eb]
      simp only [rP, rT, kP, kT, hP, hT, on, dDen, dUpw, e1, e2, or_true, if_true, one]
      have hb : (0:ℤ) ≤ (b:ℤ) := by omega
      by_cases hT : TP < 0
      · simp only [hT, not_true, false_and, if_true, e1, if_false]
        congr 1 <;> ring
      · simp only [hT, not_false_eq_true, hb, and_self, if_false, e2, if_true]
        congr 1 <;> ring
    · have c3 : ¬ (f.dn > -1 ∧ (b:ℤ) = f.dn) := fun h => e2 h.2.symm
      rw [if_neg c3]
      have n : ∀ d, dUpw f TP b d = 0 := by
        intro d
        unfold dUpw
        split <;> simp_all
      simp only [rP, rT, kP, kT, hP, hT, on, dDen, n, e1, e2, or_self, if_false, thOther, z, one]
      congr 1 <;> ring


theorem tOf_cell (c : Ctx) (ok : JacOk c) (v i k : Nat) (hk : k < (c.vert v).nCells) :
    tOf c v i ((c.vert v).cell k) = (c.vert v).T i k := by
  unfold tOf
  rw [sum_eq_single k]
  · rw [if_pos rfl]
  · intro k' hk' hne
    exact if_neg fun e => hne (ok.inj v k' (mem_range.1 hk') k hk e.symm)
  · intro h; exact absurd (mem_range.2 hk) h

theorem neg_chop_close (eps x d : ℝ) (he : 0 < eps) (h : d = -x) : |-chop eps x - d| < eps := by
  have := chop_close eps x he
  rw [h, show -chop eps x - -x = -(chop eps x - x) by ring, abs_neg]
  exact this

/-- C55 for internal subfaces: the pressure derivatives of the water and energy fluxes are those the
Jacobian routine adds to the row of the up cell, up to the threshold below which it drops entries,
if gravity is off or the density of the cell constant.  Missing: boundary subfaces, which are lost
(`C55_boundary_lost`, `C55_violated`), corner vertices (`C55_corner_lost`), and the factor the
routine multiplies the derivative with in a gravity field. -/
theorem C55_pressure_partial (t : Th) (ok : JacOk t.base) (s : Nat → ℝ → Side)
    (hp : Nat → ℝ → Heat) (U : Nat → ℝ) (v i k : Nat) (heps : 0 < t.eps)
    (hs : IsSubface t.base v i) (ha : active t.base v i) (hk : k < (t.base.vert v).nCells)
    (hu : 0 ≤ (faceOf t.base v i).up) (hd : 0 ≤ (faceOf t.base v i).dn)
    (hP : ∀ j x, (s j x).P = x)
    (sm : Smooth (s ((t.base.vert v).cell k)) (U ((t.base.vert v).cell k)))
    (hvis : (s ((t.base.vert v).cell k) (U ((t.base.vert v).cell k))).vis ≠ 0)
    (hh : HasDerivAt (fun x => (hp ((t.base.vert v).cell k) x).h)
      (hp ((t.base.vert v).cell k) (U ((t.base.vert v).cell k))).dhdP
      (U ((t.base.vert v).cell k)))
    (hT : ∀ j x, (hp j x).T = (hp j (U j)).T)
    (hg : (s ((t.base.vert v).cell k) (U ((t.base.vert v).cell k))).drho*
      (hp ((t.base.vert v).cell k) (U ((t.base.vert v).cell k))).gz = 0)
    (hbig : t.eps < |ttimesP (ctxAt t.base s U) (slot (t.base.vert v) i)|) :
    ∃ dm de,
      HasDerivAt (fun x => thFluxm (thAt t s hp (Function.update U ((t.base.vert v).cell k) x)) v i)
        dm (U ((t.base.vert v).cell k)) ∧
      HasDerivAt (fun x => thFluxe (thAt t s hp (Function.update U ((t.base.vert v).cell k) x)) v i)
        de (U ((t.base.vert v).cell k)) ∧
      |(thValue (thAt t s hp U) v i k).mP - dm| < t.eps ∧
      |(thValue (thAt t s hp U) v i k).eP - de| < t.eps := by
  set b := (t.base.vert v).cell k with hb
  have hne := ok.ne v i hs
  have htp := ttimesP_hasDerivAt t.base ok s U hP v i b hs ha.1 (ok.cells v k hk).2 (U b)
  rw [hb, tOf_cell t.base ok v i k hk, ← hb] at htp
  have htemp : HasDerivAt (fun x => thTempTP (thAt t s hp (Function.update U b x)) v i) 0 (U b) := by
    have e : ∀ x, thTempTP (thAt t s hp (Function.update U b x)) v i =
        thTempTP (thAt t s hp U) v i := by
      intro x
      unfold thTempTP
      congr 1
      unfold ttimesTemp
      refine sum_congr rfl fun j _ => ?_
      have e2 : tempVec (thAt t s hp (Function.update U b x)) j = tempVec (thAt t s hp U) j := by
        unfold tempVec thAt
        dsimp only
        rw [hT j (Function.update U b x j)]
        rfl
      rw [e2]
      rfl
    simp only [e]
    exact hasDerivAt_const _ _
  have mob : HasDerivAt (fun x => (s b x).Kr/(s b x).vis) (dukvrCell (s b (U b))) (U b) := by
    refine (sm.Kr.div sm.vis hvis).congr_deriv ?_
    unfold dukvrCell
    field_simp
  have D := thFlux_hasDerivAt t s hp U v i b _ _ _ _ _ heps htp htemp ⟨sm.rho, mob, hh⟩ hbig hne
  refine ⟨_, _, D.1, D.2, ?_, ?_⟩
  · have B := thBlock_internal (thAt t s hp U) (faceOf t.base v i)
      (ttimesP (ctxAt t.base s U) (slot (t.base.vert v) i)) ((t.base.vert v).T i k) (t.tempT v i k)
      b hu hd hne
    have e : thTP (thAt t s hp U) v i = ttimesP (ctxAt t.base s U) (slot (t.base.vert v) i) :=
      chop_big _ _ hbig
    have e2 : (thValue (thAt t s hp U) v i k).mP = -chop t.eps (thBlock (thAt t s hp U)
        (faceOf t.base v i) (ttimesP (ctxAt t.base s U) (slot (t.base.vert v) i))
        ((t.base.vert v).T i k) (t.tempT v i k) b).mP := by
      unfold thValue; rw [e]; rfl
    rw [e2]
    refine neg_chop_close _ _ _ heps ?_
    rw [B]
    have hg' : ∀ (d : ℝ), dDen (faceOf t.base v i) b (s b (U b)).drho*(hp b (U b)).gz = 0 := by
      intro d
      unfold dDen
      split
      · rw [mul_assoc, hg, mul_zero]
      · rw [zero_mul]
    have g1 : dDen (faceOf t.base v i) b ((thAt t s hp U).base.cells b).drho*
        ((thAt t s hp U).heat b).gz = 0 := hg' 0
    dsimp only
    rw [g1, add_zero, mul_one]
    rfl
  · have B := thBlock_internal (thAt t s hp U) (faceOf t.base v i)
      (ttimesP (ctxAt t.base s U) (slot (t.base.vert v) i)) ((t.base.vert v).T i k) (t.tempT v i k)
      b hu hd hne
    have e : thTP (thAt t s hp U) v i = ttimesP (ctxAt t.base s U) (slot (t.base.vert v) i) :=
      chop_big _ _ hbig
    have e2 : (thValue (thAt t s hp U) v i k).eP = -chop t.eps (thBlock (thAt t s hp U)
        (faceOf t.base v i) (ttimesP (ctxAt t.base s U) (slot (t.base.vert v) i))
        ((t.base.vert v).T i k) (t.tempT v i k) b).eP := by
      unfold thValue; rw [e]; rfl
    rw [e2]
    refine neg_chop_close _ _ _ heps ?_
    rw [B]
    have hg' : dDen (faceOf t.base v i) b (s b (U b)).drho*(hp b (U b)).gz = 0 := by
      unfold dDen
      split
      · rw [mul_assoc, hg, mul_zero]
      · rw [zero_mul]
    have g1 : dDen (faceOf t.base v i) b ((thAt t s hp U).base.cells b).drho*
        ((thAt t s hp U).heat b).gz = 0 := hg'
    dsimp only
    rw [g1, add_zero, mul_one, sub_zero]
    rfl

/-! ## Temperature derivatives -/

/-- The context whose pressures are the temperatures and whose transmissibilities are those of the
conduction. -/
def tempCtx (t : Th) : Ctx :=
  { heatCtx t with
    bc := .dirichlet
    cells := fun j => { t.base.cells j with P := (t.heat j).T }
    bnds := fun j => { t.base.bnds j with P := t.tBnd j } }

theorem ttimesTemp_eq (t : Th) (row : Nat) : ttimesTemp t row = ttimesP (tempCtx t) row := by
  unfold ttimesTemp ttimesP
  refine sum_congr rfl fun j _ => ?_
  have : tempVec t j = pVec (tempCtx t) j := rfl
  rw [this]
  rfl

theorem tempCtx_ok (t : Th) (ok : JacOk t.base)
    (hsame : ∀ v i, IsSubface t.base v i → ∀ k < (t.base.vert v).nCells,
      t.tempM v i k = t.tempT v i k) : JacOk (tempCtx t) :=
  ⟨ok.slots, ok.own, ok.le, ok.cells, hsame, ok.bnds, ok.inj, ok.ne, ok.memUp, ok.memDn, ok.touch,
    fun _ _ _ h => absurd h (by simp [tempCtx])⟩

theorem ttimesTemp_hasDerivAt (t : Th) (ok : JacOk t.base)
    (hsame : ∀ v i, IsSubface t.base v i → ∀ k < (t.base.vert v).nCells,
      t.tempM v i k = t.tempT v i k)
    (s : Nat → ℝ → Side) (hp : Nat → ℝ → Heat) (U : Nat → ℝ) (hT : ∀ j x, (hp j x).T = x)
    (v i k : Nat) (hs : IsSubface t.base v i) (hl : (t.base.vert v).isLocal = true)
    (hk : k < (t.base.vert v).nCells) :
    HasDerivAt (fun x => ttimesTemp (thAt t s hp (Function.update U ((t.base.vert v).cell k) x))
      (slot (t.base.vert v) i)) (t.tempT v i k) (U ((t.base.vert v).cell k)) := by
  have ok' := tempCtx_ok t ok hsame
  have h := ttimesP_hasDerivAt (tempCtx t) ok'
    (fun j x => { s j x with P := (hp j x).T }) U (fun j x => hT j x) v i
    ((t.base.vert v).cell k) hs hl (ok.cells v k hk).2 (U ((t.base.vert v).cell k))
  have e : tOf (tempCtx t) v i ((t.base.vert v).cell k) = t.tempT v i k :=
    tOf_cell (tempCtx t) ok' v i k hk
  rw [e] at h
  exact h

/-- C98: what the Jacobian routine stores for the temperature derivatives of the fluxes through an
internal subface, compared with the derivatives `dm`, `de`: for the two cells next to the face there
is an additional term `den*ukvr*T*(1 + dden*gz)`, times the enthalpy for the energy, where `T` is
the pressure transmissibility. -/
theorem C98_deviation (t : Th) (ok : JacOk t.base)
    (hsame : ∀ v i, IsSubface t.base v i → ∀ k < (t.base.vert v).nCells,
      t.tempM v i k = t.tempT v i k)
    (s : Nat → ℝ → Side) (hp : Nat → ℝ → Heat) (U : Nat → ℝ) (v i k : Nat) (heps : 0 < t.eps)
    (hs : IsSubface t.base v i) (ha : active t.base v i) (hk : k < (t.base.vert v).nCells)
    (hu : 0 ≤ (faceOf t.base v i).up) (hd : 0 ≤ (faceOf t.base v i).dn)
    (hP : ∀ j x, (s j x).P = (s j (U j)).P) (hT : ∀ j x, (hp j x).T = x)
    (cd : CellDeriv (s ((t.base.vert v).cell k)) (hp ((t.base.vert v).cell k))
      (U ((t.base.vert v).cell k))
      (hp ((t.base.vert v).cell k) (U ((t.base.vert v).cell k))).drhodT
      (dukvrT (s ((t.base.vert v).cell k) (U ((t.base.vert v).cell k)))
        (hp ((t.base.vert v).cell k) (U ((t.base.vert v).cell k))))
      (hp ((t.base.vert v).cell k) (U ((t.base.vert v).cell k))).dhdT)
    (hbig : t.eps < |ttimesP (ctxAt t.base s U) (slot (t.base.vert v) i)|)
    (hbig2 : t.eps < |ttimesTemp (thAt t s hp U) (slot (t.base.vert v) i)|) :
    let b := (t.base.vert v).cell k
    let f := faceOf t.base v i
    let TP := ttimesP (ctxAt t.base s U) (slot (t.base.vert v) i)
    let extra := if f.up = b ∨ f.dn = b then
      denAvg (ctxAt t.base s U) f*ukvrTP (ctxAt t.base s U) f TP*(t.base.vert v).T i k*
        (1 + 0.5*(hp b (U b)).drhodT*(hp b (U b)).gz) else 0
    ∃ dm de,
      HasDerivAt (fun x => thFluxm (thAt t s hp (Function.update U b x)) v i) dm (U b) ∧
      HasDerivAt (fun x => thFluxe (thAt t s hp (Function.update U b x)) v i) de (U b) ∧
      |(thValue (thAt t s hp U) v i k).mT - (dm - extra)| < t.eps ∧
      |(thValue (thAt t s hp U) v i k).eT -
        (de - extra*uhTP (thAt t s hp U) f TP)| < t.eps := by
  intro b f TP extra
  have hne := ok.ne v i hs
  have hU := update_self' U b
  have htp : HasDerivAt (fun x => ttimesP (ctxAt t.base s (Function.update U b x))
      (slot (t.base.vert v) i)) 0 (U b) := by
    have e : ∀ x, ttimesP (ctxAt t.base s (Function.update U b x)) (slot (t.base.vert v) i) =
        TP := by
      intro x
      change _ = ttimesP (ctxAt t.base s U) (slot (t.base.vert v) i)
      unfold ttimesP
      refine sum_congr rfl fun j _ => ?_
      have e2 : pVec (ctxAt t.base s (Function.update U b x)) j = pVec (ctxAt t.base s U) j := by
        unfold pVec ctxAt
        dsimp only
        rw [hP j (Function.update U b x j)]
      rw [e2]
      rfl
    simp only [e]
    exact hasDerivAt_const _ _
  have htemp0 := ttimesTemp_hasDerivAt t ok hsame s hp U hT v i k hs ha.1 hk
  have htemp : HasDerivAt (fun x => thTempTP (thAt t s hp (Function.update U b x)) v i)
      (t.tempT v i k) (U b) := by
    refine htemp0.congr_of_eventuallyEq ?_
    have := chop_eventually t.eps _ (U b) htemp0.continuousAt (by
      change t.eps < |ttimesTemp (thAt t s hp (Function.update U b (U b))) (slot (t.base.vert v) i)|
      rw [hU]; exact hbig2)
    filter_upwards [this] with x hx
    exact hx
  have D := thFlux_hasDerivAt t s hp U v i b _ _ _ _ _ heps htp htemp cd hbig hne
  have B := thBlock_internal (thAt t s hp U) f TP ((t.base.vert v).T i k) (t.tempT v i k)
    b hu hd hne
  have e : thTP (thAt t s hp U) v i = TP := chop_big _ _ hbig
  have extraEq : extra = (if f.up = b ∨ f.dn = b then 1 else 0)*
      (denAvg (ctxAt t.base s U) f*ukvrTP (ctxAt t.base s U) f TP*(t.base.vert v).T i k*
        (1 + dDen f b (hp b (U b)).drhodT*(hp b (U b)).gz)) := by
    change (if f.up = b ∨ f.dn = b then _ else _) = _
    unfold dDen
    split <;> simp
  refine ⟨_, _, D.1, D.2, ?_, ?_⟩
  · have e2 : (thValue (thAt t s hp U) v i k).mT = -chop t.eps (thBlock (thAt t s hp U)
        f TP ((t.base.vert v).T i k) (t.tempT v i k) b).mT := by
      unfold thValue; rw [e]; rfl
    rw [e2]
    refine neg_chop_close _ _ _ heps ?_
    rw [B, extraEq]
    change -(dDen f b _*_*TP + _*dUpw f TP b _*TP + _*_*0) - _ = -(_ + _ + _)
    rw [mul_zero, add_zero]
    change _ = -(dDen f b (hp b (U b)).drhodT*ukvrTP (ctxAt t.base s U) f TP*TP +
      denAvg (ctxAt t.base s U) f*dUpw f TP b (dukvrT (s b (U b)) (hp b (U b)))*TP +
      (if f.up = b ∨ f.dn = b then 1 else 0)*
      (denAvg (ctxAt t.base s U) f*ukvrTP (ctxAt t.base s U) f TP*(t.base.vert v).T i k*
        (1 + dDen f b (hp b (U b)).drhodT*(hp b (U b)).gz)))
    ring
  · have e2 : (thValue (thAt t s hp U) v i k).eT = -chop t.eps (thBlock (thAt t s hp U)
        f TP ((t.base.vert v).T i k) (t.tempT v i k) b).eT := by
      unfold thValue; rw [e]; rfl
    rw [e2]
    refine neg_chop_close _ _ _ heps ?_
    rw [B, extraEq]
    change -(dDen f b _*_*TP*_ + _*dUpw f TP b _*TP*_ + _*_*0*_ + _*_*TP*dUpw f TP b _) - _ - _ = _
    rw [mul_zero, zero_mul, add_zero]
    change _ = -(dDen f b (hp b (U b)).drhodT*ukvrTP (ctxAt t.base s U) f TP*TP*
        uhTP (thAt t s hp U) f TP +
      denAvg (ctxAt t.base s U) f*dUpw f TP b (dukvrT (s b (U b)) (hp b (U b)))*TP*
        uhTP (thAt t s hp U) f TP +
      (if f.up = b ∨ f.dn = b then 1 else 0)*
      (denAvg (ctxAt t.base s U) f*ukvrTP (ctxAt t.base s U) f TP*(t.base.vert v).T i k*
        (1 + dDen f b (hp b (U b)).drhodT*(hp b (U b)).gz)*uhTP (thAt t s hp U) f TP) +
      denAvg (ctxAt t.base s U) f*ukvrTP (ctxAt t.base s U) f TP*TP*
        dUpw f TP b (hp b (U b)).dhdT + t.tempT v i k)
    ring


/-- C98, as far as it holds: exact (up to the threshold) for the cells that are not next to the
face.  Missing: the two cells next to it (`C98_violated`). -/
theorem C98_other_partial (t : Th) (ok : JacOk t.base)
    (hsame : ∀ v i, IsSubface t.base v i → ∀ k < (t.base.vert v).nCells,
      t.tempM v i k = t.tempT v i k)
    (s : Nat → ℝ → Side) (hp : Nat → ℝ → Heat) (U : Nat → ℝ) (v i k : Nat) (heps : 0 < t.eps)
    (hs : IsSubface t.base v i) (ha : active t.base v i) (hk : k < (t.base.vert v).nCells)
    (hu : 0 ≤ (faceOf t.base v i).up) (hd : 0 ≤ (faceOf t.base v i).dn)
    (hP : ∀ j x, (s j x).P = (s j (U j)).P) (hT : ∀ j x, (hp j x).T = x)
    (cd : CellDeriv (s ((t.base.vert v).cell k)) (hp ((t.base.vert v).cell k))
      (U ((t.base.vert v).cell k))
      (hp ((t.base.vert v).cell k) (U ((t.base.vert v).cell k))).drhodT
      (dukvrT (s ((t.base.vert v).cell k) (U ((t.base.vert v).cell k)))
        (hp ((t.base.vert v).cell k) (U ((t.base.vert v).cell k))))
      (hp ((t.base.vert v).cell k) (U ((t.base.vert v).cell k))).dhdT)
    (hbig : t.eps < |ttimesP (ctxAt t.base s U) (slot (t.base.vert v) i)|)
    (hbig2 : t.eps < |ttimesTemp (thAt t s hp U) (slot (t.base.vert v) i)|)
    (n1 : (faceOf t.base v i).up ≠ (t.base.vert v).cell k)
    (n2 : (faceOf t.base v i).dn ≠ (t.base.vert v).cell k) :
    ∃ dm de,
      HasDerivAt (fun x => thFluxm (thAt t s hp (Function.update U ((t.base.vert v).cell k) x)) v i)
        dm (U ((t.base.vert v).cell k)) ∧
      HasDerivAt (fun x => thFluxe (thAt t s hp (Function.update U ((t.base.vert v).cell k) x)) v i)
        de (U ((t.base.vert v).cell k)) ∧
      |(thValue (thAt t s hp U) v i k).mT - dm| < t.eps ∧
      |(thValue (thAt t s hp U) v i k).eT - de| < t.eps := by
  obtain ⟨dm, de, h1, h2, h3, h4⟩ := C98_deviation t ok hsame s hp U v i k heps hs ha hk hu hd hP hT
    cd hbig hbig2
  refine ⟨dm, de, h1, h2, ?_, ?_⟩
  · rw [if_neg (by tauto), sub_zero] at h3; exact h3
  · rw [if_neg (by tauto), zero_mul, sub_zero] at h4; exact h4

namespace ThWitness

/-- Constant properties; the value is the pressure. -/
def sP (_ : Nat) (x : ℝ) : Side := FluxWitness.s x

/-- Temperatures 30 and 20, enthalpy that does not depend on the pressure. -/
def hpP (j : Nat) (_ : ℝ) : Heat := { HeatWitness.heat with T := if j = 0 then 30 else 20 }

/-- Constant properties, the value is the temperature; the pressures are 5 and 3. -/
def sT : Nat → ℝ → Side
  | 0, _ => FluxWitness.s 5
  | _, _ => FluxWitness.s 3

/-- Enthalpy equal to the temperature. -/
def hpT (_ : Nat) (x : ℝ) : Heat := { HeatWitness.heat with T := x, h := x }

/-- Temperatures. -/
def uT : Nat → ℝ
  | 0 => 30
  | _ => 20

theorem tpP : ttimesP (ctxAt FluxWitness.c sP wU) 0 = -2 ∧
    ttimesP (ctxAt FluxWitness.c sP wU) 4 = -1 := by
  constructor <;>
    simp [ttimesP, transMat_apply, wslot, ctxAt, FluxWitness.c, FluxWitness.v, slot, FluxWitness.M, pVec,
      sP, wU, FluxWitness.s, sum_range_succ] <;> norm_num

theorem tpT : ttimesP (ctxAt FluxWitness.c sT uT) 0 = -2 := by
  simp [ttimesP, transMat_apply, wslot, ctxAt, FluxWitness.c, FluxWitness.v, slot, FluxWitness.M, pVec,
    sT, FluxWitness.s, sum_range_succ]
  norm_num

theorem tempT0 : ttimesTemp (thAt HeatWitness.t sT hpT uT) 0 = -10 := by
  simp [ttimesTemp, transMat_apply, wslot, heatCtx, thAt, ctxAt, HeatWitness.t, FluxWitness.c,
    FluxWitness.v, slot, FluxWitness.M, tempVec, hpT, uT, sum_range_succ]
  norm_num

theorem smooth (x : ℝ) : Smooth (sP 0) x :=
  ⟨fun _ => rfl, hasDerivAt_const x (1:ℝ),
    (hasDerivAt_const x (1:ℝ)).congr_deriv (by simp [sP, FluxWitness.s]), hasDerivAt_const x (1:ℝ),
    hasDerivAt_const x (1:ℝ)⟩

end ThWitness

open ThWitness

/-- Non-vacuity of `C55_pressure_partial`: the internal subface of the mesh, cell 0. -/
example : ∃ dm de,
    HasDerivAt (fun x => thFluxm (thAt HeatWitness.t sP hpP (Function.update wU 0 x)) 0 0) dm 5 ∧
    HasDerivAt (fun x => thFluxe (thAt HeatWitness.t sP hpP (Function.update wU 0 x)) 0 0) de 5 ∧
    |(thValue (thAt HeatWitness.t sP hpP wU) 0 0 0).mP - dm| < 1/1000 ∧
    |(thValue (thAt HeatWitness.t sP hpP wU) 0 0 0).eP - de| < 1/1000 := by
  refine C55_pressure_partial HeatWitness.t wJacOk sP hpP wU 0 0 0 ?_ ⟨?_, ?_⟩ ⟨rfl, rfl⟩ ?_ ?_ ?_
    (fun _ _ => rfl) (smooth _) ?_ (hasDerivAt_const _ _) (fun _ _ => rfl) ?_ ?_
  · norm_num [HeatWitness.t]
  · simp [HeatWitness.t, FluxWitness.c]
  · simp [HeatWitness.t, FluxWitness.c, FluxWitness.v]
  · simp [HeatWitness.t, FluxWitness.c, FluxWitness.v]
  · exact le_refl (0:ℤ)
  · exact (by norm_num : (0:ℤ) ≤ 1)
  · exact one_ne_zero
  · simp [sP, FluxWitness.s]
  · change (1/1000 : ℝ) < |ttimesP (ctxAt FluxWitness.c sP wU) 0|
    rw [tpP.1]; norm_num

/-- C55 is violated: the flux through the boundary subface of this mesh grows by one for each unit
of the pressure of its cell, but the routine adds nothing to the Jacobian for this subface. -/
theorem C55_violated : ∃ (t : Th) (s : Nat → ℝ → Side) (hp : Nat → ℝ → Heat) (U : Nat → ℝ),
    JacOk t.base ∧ OwnsAll t.base ∧ IsSubface t.base 0 1 ∧ (faceOf t.base 0 1).up = 1 ∧
    (faceOf t.base 0 1).dn < 0 ∧
    HasDerivAt (fun x => thFluxm (thAt t s hp (Function.update U 1 x)) 0 1) 1 (U 1) ∧
    ∀ k A, thColumn (thAt t s hp U) 0 1 k A = A := by
  refine ⟨HeatWitness.t, sP, hpP, wU, wJacOk, FluxWitness.ownsAll, ⟨?_, ?_⟩, rfl, ?_, ?_, ?_⟩
  · simp [HeatWitness.t, FluxWitness.c]
  · simp [HeatWitness.t, FluxWitness.c, FluxWitness.v]
  · exact (by norm_num : (-1:ℤ) < 0)
  · have hs : IsSubface FluxWitness.c 0 1 := ⟨by simp [FluxWitness.c], by
      simp [FluxWitness.c, FluxWitness.v]⟩
    have htp := ttimesP_hasDerivAt FluxWitness.c wJacOk sP wU (fun _ _ => rfl) 0 1 1 hs rfl
      (by simp [FluxWitness.c]) (wU 1)
    have e : tOf FluxWitness.c 0 1 1 = -1 := by
      simp [tOf, FluxWitness.c, FluxWitness.v, FluxWitness.M, sum_range_succ]
    rw [e] at htp
    have htemp : HasDerivAt (fun x => thTempTP (thAt HeatWitness.t sP hpP
        (Function.update wU 1 x)) 0 1) 0 (wU 1) := by
      have : ∀ x, thTempTP (thAt HeatWitness.t sP hpP (Function.update wU 1 x)) 0 1 =
          thTempTP (thAt HeatWitness.t sP hpP wU) 0 1 := fun x => rfl
      simp only [this]
      exact hasDerivAt_const _ _
    have D := (thFlux_hasDerivAt HeatWitness.t sP hpP wU 0 1 1 (-1) 0 0 0 0
      (by norm_num [HeatWitness.t]) htp htemp
      ⟨hasDerivAt_const _ (1:ℝ), hasDerivAt_const _ ((1:ℝ)/1), hasDerivAt_const _ (3:ℝ)⟩ (by
        change (1/1000 : ℝ) < |ttimesP (ctxAt FluxWitness.c sP wU) 4|
        rw [tpP.2]; norm_num) (by
        change (1:ℤ) ≠ -1; norm_num)).1
    refine D.congr_deriv ?_
    have e1 : denAvg (ctxAt HeatWitness.t.base sP wU) (faceOf HeatWitness.t.base 0 1) = 1 := by
      change denAvg (ctxAt FluxWitness.c sP wU) (FluxWitness.face 1) = 1
      simp [denAvg, side, FluxWitness.face, ctxAt, sP, FluxWitness.s, FluxWitness.c]
      norm_num
    have e2 : ∀ x, ukvrTP (ctxAt HeatWitness.t.base sP wU) (faceOf HeatWitness.t.base 0 1) x
        = 1 := by
      intro x
      change ukvrTP (ctxAt FluxWitness.c sP wU) (FluxWitness.face 1) x = 1
      simp [ukvrTP, side, FluxWitness.face, ctxAt, sP, FluxWitness.s, FluxWitness.c]
    simp only [e1, e2, ite_self, mul_zero, zero_mul]
    norm_num
  · intro k A
    exact C55_boundary_lost _ 0 1 k A (Or.inr ⟨(by norm_num : (-1:ℤ) < 0),
      (by norm_num : (0:ℤ) ≤ 1)⟩)

/-- C98 is violated: no property of this water depends on the temperature, so neither does the
water flux; the Jacobian routine stores 1 for the derivative with respect to the temperature of
the up cell. -/
theorem C98_violated : ∃ (t : Th) (s : Nat → ℝ → Side) (hp : Nat → ℝ → Heat) (U : Nat → ℝ),
    JacOk t.base ∧ OwnsAll t.base ∧ IsSubface t.base 0 0 ∧
    (∀ x, thFluxm (thAt t s hp (Function.update U 0 x)) 0 0 = 2) ∧
    (thValue (thAt t s hp U) 0 0 0).mT = 1 := by
  have e : thTP (thAt HeatWitness.t sT hpT uT) 0 0 = -2 := by
    change chop (1/1000) (ttimesP (ctxAt FluxWitness.c sT uT) 0) = -2
    rw [tpT]; norm_num [chop]
  refine ⟨HeatWitness.t, sT, hpT, uT, wJacOk, FluxWitness.ownsAll, ⟨?_, ?_⟩, ?_, ?_⟩
  · simp [HeatWitness.t, FluxWitness.c]
  · simp [HeatWitness.t, FluxWitness.c, FluxWitness.v]
  · intro x
    have hc : ctxAt FluxWitness.c sT (Function.update uT 0 x) = ctxAt FluxWitness.c sT uT := by
      unfold ctxAt
      congr 1
      funext j
      rcases j with _ | j <;> rfl
    have e' : thTP (thAt HeatWitness.t sT hpT (Function.update uT 0 x)) 0 0 = -2 := by
      change chop (1/1000) (ttimesP (ctxAt FluxWitness.c sT (Function.update uT 0 x)) 0) = -2
      rw [hc, tpT]; norm_num [chop]
    unfold thFluxm
    rw [e']
    simp [thAt, ctxAt, denAvg, ukvrTP, side, sT, FluxWitness.s, FluxWitness.c, FluxWitness.v,
      FluxWitness.face, HeatWitness.t]
    norm_num
  · unfold thValue
    rw [e]
    simp [Block.map, thBlock, thUp, thDn, thAdvect, chop, thAt, ctxAt, denAvg, ukvrTP, side, sT,
      FluxWitness.s, FluxWitness.c, FluxWitness.v, FluxWitness.face, HeatWitness.t, dukvrT, hpT,
      HeatWitness.heat, FluxWitness.M]
    norm_num

/-- Non-vacuity of `C98_deviation`: the internal subface of the mesh, cell 0. -/
example : ∃ dm de,
    HasDerivAt (fun x => thFluxm (thAt HeatWitness.t sT hpT (Function.update uT 0 x)) 0 0) dm 30 ∧
    HasDerivAt (fun x => thFluxe (thAt HeatWitness.t sT hpT (Function.update uT 0 x)) 0 0) de 30 := by
  obtain ⟨dm, de, h1, h2, _⟩ := C98_deviation HeatWitness.t wJacOk (fun _ _ _ _ _ => rfl) sT hpT uT
    0 0 0 (by norm_num [HeatWitness.t]) ⟨by simp [HeatWitness.t, FluxWitness.c], by
      simp [HeatWitness.t, FluxWitness.c, FluxWitness.v]⟩ ⟨rfl, rfl⟩
    (by simp [HeatWitness.t, FluxWitness.c, FluxWitness.v]) (le_refl (0:ℤ))
    (by exact (by norm_num : (0:ℤ) ≤ 1)) (fun j x => by rcases j with _ | j <;> rfl)
    (fun _ _ => rfl)
    ⟨hasDerivAt_const _ (1:ℝ), (hasDerivAt_const _ ((1:ℝ)/1)).congr_deriv (by
      change 0 = dukvrT (sT 0 (uT 0)) (hpT 0 (uT 0))
      simp [dukvrT, sT, hpT, FluxWitness.s, HeatWitness.heat]), hasDerivAt_id _⟩
    (by
      change (1/1000 : ℝ) < |ttimesP (ctxAt FluxWitness.c sT uT) 0|
      rw [tpT]; norm_num)
    (by
      change (1/1000 : ℝ) < |ttimesTemp (thAt HeatWitness.t sT hpT uT) 0|
      rw [tempT0]; norm_num)
  exact ⟨dm, de, h1, h2⟩


end

end TDy.Mpfao.Props
