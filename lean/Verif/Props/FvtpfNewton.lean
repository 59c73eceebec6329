import Verif.Props.FvtpfMonotone
import Verif.Spec.FvtpfNewton
import Mathlib.LinearAlgebra.Matrix.ToLinearEquiv
import Mathlib.LinearAlgebra.Matrix.NonsingularInverse
import Mathlib.Order.Preorder.Finite

/-!
# C182: the Newton systems of the two-point method
-/

namespace TDy.Fvtpf.Props

open TDy.Fvtpf TDy.Fvtpf.Spec TDy.Fvtpf.Proofs TDy.Geo Finset

noncomputable section

/-! ## Signs of the derivatives of a flux -/

theorem mobility_slope {s : Side} (hs : Physical s) (hv : s.dvis = 0) (h1 : 0 ≤ s.dSdP)
    (h2 : 0 ≤ s.dKrdS) : 0 ≤ dukvr s := by
  unfold dukvr
  rw [hv]
  have := hs.vis
  simp only [mul_zero, zero_div, sub_zero]
  positivity

/-- The derivatives of the flux through an internal face. -/
theorem jacobian_signs {Dq dg w area : ℝ} {up dn : Side} {old : ℝ × ℝ} (hD : 0 < Dq)
    (hw : 0 ≤ w ∧ w ≤ 1) (hu : Physical up) (hd : Physical dn) (hu0 : 0 < up.Kr) (hd0 : 0 < dn.Kr)
    (hm : mobile up dn) (ru : up.drho = 0) (rd : dn.drho = 0) (su : 0 ≤ dukvr up)
    (sd : 0 ≤ dukvr dn) :
    ∃ p q : ℝ, 0 < p ∧ 0 < q ∧ jacobian Dq dg w area up dn old = (area*p, -(area*q)) := by
  have hden := denAve_pos hw.1 hw.2 hu.rho hd.rho
  have hvu := hu.vis
  have hvd := hd.vis
  unfold jacobian
  rw [if_pos hm]
  simp only [ru, rd]
  by_cases h : dphi dg w up dn ≥ 0.0
  · have h' : 0 ≤ dphi dg w up dn := by norm_num at h; exact h
    refine ⟨Dq*(dukvr up*dphi dg w up dn + up.Kr/up.vis)*denAve w up dn,
      Dq*(up.Kr/up.vis)*denAve w up dn, by positivity, by positivity, ?_⟩
    simp only [h, if_true]
    norm_num
    constructor <;> ring
  · have h' : 0 ≤ -dphi dg w up dn := by norm_num at h; linarith
    refine ⟨Dq*(dn.Kr/dn.vis)*denAve w up dn,
      Dq*(dukvr dn*(-dphi dg w up dn) + dn.Kr/dn.vis)*denAve w up dn, by positivity, by positivity, ?_⟩
    simp only [h, if_false]
    norm_num
    constructor <;> ring

/-- The derivative of the flux from a boundary of prescribed pressure. -/
theorem bcJacobian_signs {Dq dg w area : ℝ} {up dn : Side} {old : ℝ} (hD : 0 < Dq)
    (hw : 0 ≤ w ∧ w ≤ 1) (hu : Physical up) (hd : Physical dn) (hd0 : 0 < dn.Kr)
    (hm : mobile up dn) (rd : dn.drho = 0) (sd : 0 ≤ dukvr dn) :
    ∃ q : ℝ, 0 ≤ q ∧ (0 < q ↔ dphi dg w up dn < 0) ∧
      bcJacobian Dq dg w area up dn old = -(area*q) := by
  have hden := denAve_pos hw.1 hw.2 hu.rho hd.rho
  have hvd := hd.vis
  unfold bcJacobian
  rw [if_pos hm]
  simp only [rd]
  by_cases h : dphi dg w up dn ≥ 0.0
  · have h' : 0 ≤ dphi dg w up dn := by norm_num at h; exact h
    refine ⟨0, le_refl _, ⟨fun h => absurd h (lt_irrefl _), fun h => absurd h (not_lt.2 h')⟩, ?_⟩
    simp only [h, if_true]
    norm_num
  · have h' : dphi dg w up dn < 0 := by norm_num at h; exact h
    have h'' : 0 ≤ -dphi dg w up dn := by linarith
    have hq : 0 < Dq*(dukvr dn*(-dphi dg w up dn) + dn.Kr/dn.vis)*denAve w up dn := by positivity
    refine ⟨_, hq.le, ⟨fun _ => h', fun _ => hq⟩, ?_⟩
    simp only [h, if_false]
    norm_num
    ring

/-- The derivative of the flux from a seepage face. -/
theorem seepageJacobian_signs {Pref Dq dg w area : ℝ} {up dn : Side} {old : ℝ} (hD : 0 < Dq)
    (hw : 0 ≤ w ∧ w ≤ 1) (hu : Physical up) (hd : Physical dn) (hd0 : 0 < dn.Kr)
    (hm : mobile up dn) (rd : dn.drho = 0) (sd : 0 ≤ dukvr dn) :
    ∃ q : ℝ, 0 ≤ q ∧ (0 < q ↔ dphi dg w up dn < 0 ∨ (1e-8 ≤ up.P - Pref ∧ 0 < up.Kr)) ∧
      seepageJacobian Pref Dq dg w area up dn old = -(area*q) := by
  have hden := denAve_pos hw.1 hw.2 hu.rho hd.rho
  have hvd := hd.vis
  have hvu := hu.vis
  have hku := hu.Kr
  unfold seepageJacobian
  rw [if_pos hm]
  simp only [rd]
  by_cases h : dphi dg w up dn ≥ 0.0
  · have h' : 0 ≤ dphi dg w up dn := by norm_num at h; exact h
    by_cases hp : up.P - Pref < 1e-8
    · refine ⟨0, le_refl _, ⟨fun h => absurd h (lt_irrefl _), ?_⟩, ?_⟩
      · rintro (h | h)
        · exact absurd h (not_lt.2 h')
        · exact absurd hp (not_lt.2 h.1)
      · simp only [h, hp, and_self, if_true]
        norm_num
    · have hq : 0 ≤ Dq*(up.Kr/up.vis)*denAve w up dn := by positivity
      refine ⟨_, hq, ⟨fun h0 => Or.inr ⟨not_lt.1 hp, ?_⟩, ?_⟩, ?_⟩
      · by_contra hk
        have : up.Kr = 0 := le_antisymm (not_lt.1 hk) hku
        rw [this] at h0
        norm_num at h0
      · rintro (h | h)
        · exact absurd h (not_lt.2 h')
        · have := h.2
          positivity
      · simp only [h, hp, and_false, if_false, if_true]
        norm_num
        ring
  · have h' : dphi dg w up dn < 0 := by norm_num at h; exact h
    have h'' : 0 ≤ -dphi dg w up dn := by linarith
    have hq : 0 < Dq*(dukvr dn*(-dphi dg w up dn) + dn.Kr/dn.vis)*denAve w up dn := by positivity
    refine ⟨_, hq.le, ⟨fun _ => Or.inl h', fun _ => hq⟩, ?_⟩
    simp only [h, false_and, if_false]
    norm_num
    ring

/-! ## The columns of the matrix -/

/-- What an internal face adds to a column, weighted by rows. -/
theorem column_internal (c : Ctx) (wf : WellFormed c) (own : ∀ j, c.isLocal j = true)
    (junk : Nat → ℝ × ℝ) (y : Nat → ℝ) (i b : Nat) (hi : i < c.numFaces) (hI : IsInternal c i) :
    (∑ a ∈ range c.numCells, y a*jacInternalTerm c junk i a b) =
      (y (c.face i).up.toNat - y (c.face i).dn.toNat)*
        ((if b = (c.face i).up.toNat then (richardsJacobian c (c.face i) (junk i)).1 else 0) +
         (if b = (c.face i).dn.toNat then (richardsJacobian c (c.face i) (junk i)).2 else 0)) := by
  obtain ⟨h1, h2, h3, h4⟩ := wf.internal i hi hI
  have hu : (c.face i).up.toNat ∈ range c.numCells := by rw [mem_range]; omega
  have hd : (c.face i).dn.toNat ∈ range c.numCells := by rw [mem_range]; omega
  have e : ∀ a, y a*jacInternalTerm c junk i a b =
      (if a = (c.face i).up.toNat then y a*((if b = (c.face i).up.toNat then
        (richardsJacobian c (c.face i) (junk i)).1 else 0) +
         (if b = (c.face i).dn.toNat then (richardsJacobian c (c.face i) (junk i)).2 else 0)) else 0) +
      (if a = (c.face i).dn.toNat then -(y a*((if b = (c.face i).up.toNat then
        (richardsJacobian c (c.face i) (junk i)).1 else 0) +
         (if b = (c.face i).dn.toNat then (richardsJacobian c (c.face i) (junk i)).2 else 0))) else 0) := by
    intro a
    simp only [jacInternalTerm]
    simp only [if_pos (show (c.face i).isLocal = true ∧ (c.face i).isInternal = true from hI), h1, h3,
      own, true_and]
    by_cases ha : a = (c.face i).up.toNat <;> by_cases ha' : a = (c.face i).dn.toNat <;>
      by_cases hb : b = (c.face i).up.toNat <;> by_cases hb' : b = (c.face i).dn.toNat <;>
      simp only [ha, ha', hb, hb', if_true, if_false] <;> (try split_ifs) <;> ring
  simp only [e, sum_add_distrib]
  rw [sum_ite_eq' , sum_ite_eq', if_pos hu, if_pos hd]
  ring

theorem column_other (c : Ctx) (junk : Nat → ℝ × ℝ) (i a b : Nat) (hI : ¬ IsInternal c i) :
    jacInternalTerm c junk i a b = 0 := by
  simp only [jacInternalTerm]
  rw [if_neg (show ¬ ((c.face i).isLocal = true ∧ (c.face i).isInternal = true) from hI)]

open Classical in
theorem column_boundary (c : Ctx) (wf : WellFormed c) (own : ∀ j, c.isLocal j = true)
    (junk : Nat → ℝ) (y : Nat → ℝ) (i b : Nat) (hi : i < c.numFaces) (hb : b < c.numCells) :
    (∑ a ∈ range c.numCells, y a*jacBoundaryTerm c junk i a b) =
      if IsOpenBoundary c i ∧ b = (c.face i).dn.toNat then
        y b*(-((boundaryJac c (c.face i) (junk i)).getD 0)) else 0 := by
  by_cases h : IsOpenBoundary c i
  · obtain ⟨h1, h2, -⟩ := wf.boundary i hi h
    by_cases hd : b = (c.face i).dn.toNat
    · rw [if_pos ⟨h, hd⟩]
      rw [sum_eq_single_of_mem b (mem_range.2 hb)]
      · simp only [jacBoundaryTerm]
        rw [if_pos (show (c.face i).isLocal = true ∧ (c.face i).isInternal = false ∧
          (c.face i).bc ≠ .neumann from h), if_pos ⟨h1, own _, hd, hd⟩]
      · intro a _ hab
        simp only [jacBoundaryTerm]
        rw [if_pos (show (c.face i).isLocal = true ∧ (c.face i).isInternal = false ∧
          (c.face i).bc ≠ .neumann from h), if_neg, mul_zero]
        rintro ⟨-, -, e1, e2⟩
        exact hab (by rw [e1, e2])
    · rw [if_neg (fun h => hd h.2)]
      apply sum_eq_zero
      intro a _
      simp only [jacBoundaryTerm]
      rw [if_pos (show (c.face i).isLocal = true ∧ (c.face i).isInternal = false ∧
        (c.face i).bc ≠ .neumann from h), if_neg (fun h => hd h.2.2.2), mul_zero]
  · rw [if_neg (fun h' => h h'.1)]
    apply sum_eq_zero
    intro a _
    simp only [jacBoundaryTerm]
    rw [if_neg (show ¬ ((c.face i).isLocal = true ∧ (c.face i).isInternal = false ∧
      (c.face i).bc ≠ .neumann) from h), mul_zero]

open Classical in
/-- A column of the matrix, weighted by rows: internal faces, boundary faces, storage. -/
theorem column (c : Ctx) (wf : WellFormed c) (own : ∀ j, c.isLocal j = true) (dt : ℝ)
    (junk : Nat → ℝ × ℝ) (junkB : Nat → ℝ) (B : Nat → Nat → ℝ)
    (h : snesJacobian c dt junk junkB = some B) (y : Nat → ℝ) (b : Nat) (hb : b < c.numCells) :
    (∑ a ∈ range c.numCells, y a*B a b) =
      (∑ i ∈ range c.numFaces, if IsInternal c i then
        (y (c.face i).up.toNat - y (c.face i).dn.toNat)*
        ((if b = (c.face i).up.toNat then (richardsJacobian c (c.face i) (junk i)).1 else 0) +
         (if b = (c.face i).dn.toNat then (richardsJacobian c (c.face i) (junk i)).2 else 0)) else 0) +
      (∑ i ∈ range c.numFaces, if IsOpenBoundary c i ∧ b = (c.face i).dn.toNat then
        y b*(-((boundaryJac c (c.face i) (junkB i)).getD 0)) else 0) +
      y b*jacobianAccumulation c dt b := by
  have e : ∀ a ∈ range c.numCells, y a*B a b =
      (∑ i ∈ range c.numFaces, y a*jacInternalTerm c junk i a b) +
      (∑ i ∈ range c.numFaces, y a*jacBoundaryTerm c junkB i a b) +
      (if a = b then y a*jacobianAccumulation c dt a else 0) := by
    intro a ha
    rw [snesJacobian_apply c dt junk junkB B h, ← mul_sum, ← mul_sum]
    have : (a = b ∧ a < c.numCells ∧ c.isLocal a = true) ↔ a = b :=
      ⟨fun h => h.1, fun h => ⟨h, mem_range.1 ha, own a⟩⟩
    rw [if_congr this rfl rfl]
    split_ifs <;> ring
  rw [sum_congr rfl e, sum_add_distrib, sum_add_distrib, sum_comm,
    sum_comm (s := range c.numCells) (t := range c.numFaces)
      (f := fun a i => y a*jacBoundaryTerm c junkB i a b)]
  congr 1
  · congr 1
    · apply sum_congr rfl
      intro i hi
      by_cases hI : IsInternal c i
      · rw [if_pos hI, column_internal c wf own junk y i b (mem_range.1 hi) hI]
      · rw [if_neg hI]
        exact sum_eq_zero fun a _ => by rw [column_other c junk i a b hI, mul_zero]
    · apply sum_congr rfl
      intro i hi
      exact column_boundary c wf own junkB y i b (mem_range.1 hi) hb
  · rw [sum_ite_eq', if_pos (mem_range.2 hb)]

/-! ## Signs of the entries -/

theorem internal_slopes (c : Ctx) (hc : NewtonState c) (junk : Nat → ℝ × ℝ) (i : Nat)
    (hi : i < c.numFaces) (hI : IsInternal c i) : ∃ p q : ℝ, 0 < p ∧ 0 < q ∧
    richardsJacobian c (c.face i) (junk i) =
      ((c.face i).geom.area*p, -((c.face i).geom.area*q)) := by
  obtain ⟨h1, h2, h3, h4⟩ := hc.wf.internal i hi hI
  have hu : (c.face i).up.toNat < c.numCells := by omega
  have hd : (c.face i).dn.toNat < c.numCells := by omega
  have k := hc.conducting
  have ku := k.mobile _ hu
  have kd := k.mobile _ hd
  unfold richardsJacobian
  exact jacobian_signs (faceDq_pos c (c.face i) (k.geom i hi) k.perm)
    (weight_mem c.gravity (c.face i).geom (k.geom i hi)) (k.cell _ hu) (k.cell _ hd)
    (by linarith) (by linarith) (Or.inl ku) (hc.density _ hu) (hc.density _ hd)
    (mobility_slope (k.cell _ hu) (hc.viscosity _ hu) (hc.saturation _ hu) (hc.conductivity _ hu))
    (mobility_slope (k.cell _ hd) (hc.viscosity _ hd) (hc.saturation _ hd) (hc.conductivity _ hd))

/-- A boundary face that the matrix sees. -/
def SeenFace (c : Ctx) (i : Nat) : Prop :=
  0 < (c.face i).geom.area ∧ ∃ b, bndAt c (bndIndex (c.face i).up) = some b ∧
    (((c.face i).bc = .dirichlet ∧ dphi (dists c (c.face i)).1 (dists c (c.face i)).2 b
        (c.cells (c.face i).dn.toNat) < 0) ∨
     ((c.face i).bc = .seepage ∧ (dphi (dists c (c.face i)).1 (dists c (c.face i)).2 b
        (c.cells (c.face i).dn.toNat) < 0 ∨ (1e-8 ≤ b.P - c.Pref ∧ 0 < b.Kr))))

theorem boundary_slope (c : Ctx) (hc : NewtonState c) (junk : Nat → ℝ) (i : Nat)
    (hi : i < c.numFaces) (hb : IsOpenBoundary c i) :
    0 ≤ -((boundaryJac c (c.face i) (junk i)).getD 0) ∧
    (0 < -((boundaryJac c (c.face i) (junk i)).getD 0) ↔ SeenFace c i) := by
  obtain ⟨h1, h2, -⟩ := hc.wf.boundary i hi hb
  have hd : (c.face i).dn.toNat < c.numCells := by omega
  have k := hc.conducting
  have kd := k.mobile _ hd
  have hA := (k.geom i hi).area
  have slope := mobility_slope (k.cell _ hd) (hc.viscosity _ hd) (hc.saturation _ hd)
    (hc.conductivity _ hd)
  have hD := faceDq_pos c (c.face i) (k.geom i hi) k.perm
  have hw := weight_mem c.gravity (c.face i).geom (k.geom i hi)
  have hne := hb.2.2
  unfold boundaryJac SeenFace
  unfold richardsBCJacobian richardsSeepageBCJacobian
  cases hs : bndAt c (bndIndex (c.face i).up) with
  | none =>
    cases hbc : (c.face i).bc <;> simp at hne ⊢
  | some s =>
    have hP : Physical s := by
      unfold bndAt at hs
      by_cases hr : 0 ≤ bndIndex (c.face i).up ∧ bndIndex (c.face i).up < c.numBnd
      · rw [if_pos hr, Option.some.injEq] at hs
        rw [← hs]
        exact k.bnd _ (by omega)
      · rw [if_neg hr] at hs; simp at hs
    cases hbc : (c.face i).bc
    · obtain ⟨q, q0, qs, e⟩ := bcJacobian_signs (area := (c.face i).geom.area)
        (dg := (dists c (c.face i)).1) (old := junk i) hD hw hP (k.cell _ hd) (by linarith)
        (Or.inr kd) (hc.density _ hd) slope
      simp only [Option.map_some, Option.getD_some, dists] at e ⊢
      rw [e, neg_neg]
      refine ⟨mul_nonneg hA q0, ⟨fun h => ?_, ?_⟩⟩
      · have hA' : 0 < (c.face i).geom.area := by
          rcases hA.lt_or_eq with h' | h'
          · exact h'
          · rw [← h', zero_mul] at h; exact absurd h (lt_irrefl _)
        exact ⟨hA', s, rfl, Or.inl ⟨trivial, qs.1 (pos_of_mul_pos_right h hA)⟩⟩
      · rintro ⟨hA', t, ht, hh⟩
        rw [Option.some.injEq] at ht
        subst ht
        rcases hh with hh | hh
        · exact mul_pos hA' (qs.2 hh.2)
        · exact absurd hh.1 (by simp)
    · exact absurd hbc hne
    · obtain ⟨q, q0, qs, e⟩ := seepageJacobian_signs (area := (c.face i).geom.area) (Pref := c.Pref)
        (dg := (dists c (c.face i)).1) (old := junk i) hD hw hP (k.cell _ hd) (by linarith)
        (Or.inr kd) (hc.density _ hd) slope
      simp only [Option.map_some, Option.getD_some, dists] at e ⊢
      rw [e, neg_neg]
      refine ⟨mul_nonneg hA q0, ⟨fun h => ?_, ?_⟩⟩
      · have hA' : 0 < (c.face i).geom.area := by
          rcases hA.lt_or_eq with h' | h'
          · exact h'
          · rw [← h', zero_mul] at h; exact absurd h (lt_irrefl _)
        exact ⟨hA', s, rfl, Or.inr ⟨trivial, qs.1 (pos_of_mul_pos_right h hA)⟩⟩
      · rintro ⟨hA', t, ht, hh⟩
        rw [Option.some.injEq] at ht
        subst ht
        rcases hh with hh | hh
        · exact absurd hh.1 (by simp)
        · exact mul_pos hA' (qs.2 hh.2)

theorem storage_slope (c : Ctx) (hc : NewtonState c) (dt : ℝ) (hdt : 0 < dt) (j : Nat)
    (hj : j < c.numCells) : 0 ≤ jacobianAccumulation c dt j ∧
    (0 < jacobianAccumulation c dt j ↔ Stores c j) := by
  have e : jacobianAccumulation c dt j =
      ((c.cells j).rho/dt)*(c.por j*(c.cells j).dSdP*c.vol j) := by
    simp only [jacobianAccumulation, hc.density j hj, show (0.0:ℝ) = 0 by norm_num]
    ring
  have hr : 0 < (c.cells j).rho/dt := div_pos (hc.conducting.cell j hj).rho hdt
  have h0 : 0 ≤ c.por j*(c.cells j).dSdP*c.vol j :=
    mul_nonneg (mul_nonneg (hc.space j hj).1 (hc.saturation j hj)) (hc.space j hj).2
  rw [e]
  unfold Stores
  exact ⟨mul_nonneg hr.le h0, ⟨fun h => pos_of_mul_pos_right h hr.le, fun h => mul_pos hr h⟩⟩

theorem anchored_iff (c : Ctx) (j : Nat) : Anchored c j ↔
    Stores c j ∨ ∃ i < c.numFaces, IsOpenBoundary c i ∧ j = (c.face i).dn.toNat ∧ SeenFace c i := by
  unfold Anchored Drains Seeps HasBoundary SeenFace
  constructor
  · rintro (h | ⟨i, hi, ho, hk, hj, hA, b, hb, hd⟩ | ⟨i, hi, ho, hk, hj, hA, b, hb, hd⟩)
    · exact Or.inl h
    · subst hj
      exact Or.inr ⟨i, hi, ho, rfl, hA, b, hb, Or.inl ⟨hk, hd⟩⟩
    · subst hj
      exact Or.inr ⟨i, hi, ho, rfl, hA, b, hb, Or.inr ⟨hk, hd⟩⟩
  · rintro (h | ⟨i, hi, ho, hj, hA, b, hb, ⟨hk, hd⟩ | ⟨hk, hd⟩⟩)
    · exact Or.inl h
    · subst hj
      exact Or.inr (Or.inl ⟨i, hi, ho, hk, rfl, hA, b, hb, hd⟩)
    · subst hj
      exact Or.inr (Or.inr ⟨i, hi, ho, hk, rfl, hA, b, hb, hd⟩)

/-! ## The least weight -/

theorem joined_lt (c : Ctx) (wf : WellFormed c) {j k : Nat} (h : Joined c j k) :
    k < c.numCells := by
  obtain ⟨i, hi, hI, -, h⟩ := h
  obtain ⟨h1, h2, h3, h4⟩ := wf.internal i hi hI
  rcases h with ⟨rfl, rfl⟩ | ⟨rfl, rfl⟩ <;> omega

open Classical in
/-- Where the weights are least and negative, and the weighted column is not negative, nothing anchors
the cell and joined cells have the same weight. -/
theorem least (c : Ctx) (hc : NewtonState c) (dt : ℝ) (hdt : 0 < dt) (junk : Nat → ℝ × ℝ)
    (junkB : Nat → ℝ) (B : Nat → Nat → ℝ) (h : snesJacobian c dt junk junkB = some B) (y : Nat → ℝ)
    (j : Nat) (hj : j < c.numCells) (hneg : y j < 0) (hmin : ∀ k < c.numCells, y j ≤ y k)
    (hcol : 0 ≤ ∑ a ∈ range c.numCells, y a*B a j) :
    ¬ Anchored c j ∧ ∀ k, Joined c j k → y k = y j := by
  rw [column c hc.wf hc.own dt junk junkB B h y j hj] at hcol
  have hin : ∀ i ∈ range c.numFaces, (if IsInternal c i then
        (y (c.face i).up.toNat - y (c.face i).dn.toNat)*
        ((if j = (c.face i).up.toNat then (richardsJacobian c (c.face i) (junk i)).1 else 0) +
         (if j = (c.face i).dn.toNat then (richardsJacobian c (c.face i) (junk i)).2 else 0))
          else 0) ≤ 0 := by
    intro i hi
    rw [mem_range] at hi
    by_cases hI : IsInternal c i
    · rw [if_pos hI]
      obtain ⟨p, q, hp, hq, e⟩ := internal_slopes c hc junk i hi hI
      have hA := (hc.conducting.geom i hi).area
      obtain ⟨h1, h2, h3, h4⟩ := hc.wf.internal i hi hI
      have hu := hmin (c.face i).up.toNat (by omega)
      have hd := hmin (c.face i).dn.toNat (by omega)
      rw [e]
      by_cases c1 : j = (c.face i).up.toNat
      · rw [← c1]
        by_cases c2 : j = (c.face i).dn.toNat
        · rw [← c2, sub_self, zero_mul]
        · rw [if_pos rfl, if_neg c2, add_zero]
          exact mul_nonpos_of_nonpos_of_nonneg (by linarith) (mul_nonneg hA hp.le)
      · by_cases c2 : j = (c.face i).dn.toNat
        · rw [← c2, if_neg c1, if_pos rfl, zero_add]
          exact mul_nonpos_of_nonneg_of_nonpos (by linarith) (by
            have := mul_nonneg hA hq.le
            linarith)
        · rw [if_neg c1, if_neg c2, add_zero, mul_zero]
    · rw [if_neg hI]
  have hbn : ∀ i ∈ range c.numFaces, (if IsOpenBoundary c i ∧ j = (c.face i).dn.toNat then
        y j*(-((boundaryJac c (c.face i) (junkB i)).getD 0)) else 0) ≤ 0 := by
    intro i hi
    rw [mem_range] at hi
    by_cases hI : IsOpenBoundary c i ∧ j = (c.face i).dn.toNat
    · rw [if_pos hI]
      exact mul_nonpos_of_nonpos_of_nonneg hneg.le (boundary_slope c hc junkB i hi hI.1).1
    · rw [if_neg hI]
  have hst : y j*jacobianAccumulation c dt j ≤ 0 :=
    mul_nonpos_of_nonpos_of_nonneg hneg.le (storage_slope c hc dt hdt j hj).1
  have s1 := sum_nonpos hin
  have s2 := sum_nonpos hbn
  have z1 := (sum_eq_zero_iff_of_nonpos hin).1 (by linarith)
  have z2 := (sum_eq_zero_iff_of_nonpos hbn).1 (by linarith)
  have z3 : y j*jacobianAccumulation c dt j = 0 := by linarith
  constructor
  · rw [anchored_iff]
    rintro (hs | ⟨i, hi, ho, hd, hs⟩)
    · have := (storage_slope c hc dt hdt j hj).2.2 hs
      exact absurd z3 (mul_neg_of_neg_of_pos hneg this).ne
    · have z := z2 i (mem_range.2 hi)
      rw [if_pos ⟨ho, hd⟩] at z
      have := (boundary_slope c hc junkB i hi ho).2.2 hs
      exact absurd z (mul_neg_of_neg_of_pos hneg this).ne
  · rintro k ⟨i, hi, hI, hA, hjk⟩
    have z := z1 i (mem_range.2 hi)
    obtain ⟨p, q, hp, hq, e⟩ := internal_slopes c hc junk i hi hI
    rw [if_pos hI, e] at z
    have hAp := mul_pos hA hp
    have hAq := mul_pos hA hq
    rcases hjk with ⟨rfl, rfl⟩ | ⟨rfl, rfl⟩
    · by_cases c2 : (c.face i).up.toNat = (c.face i).dn.toNat
      · rw [c2]
      · rw [if_pos rfl, if_neg c2, add_zero] at z
        rcases mul_eq_zero.1 z with z | z <;> linarith
    · by_cases c2 : (c.face i).dn.toNat = (c.face i).up.toNat
      · rw [c2]
      · rw [if_neg c2, if_pos rfl, zero_add] at z
        rcases mul_eq_zero.1 z with z | z <;> linarith

/-- Weights whose columns are not negative are not negative. -/
theorem weights_nonneg (c : Ctx) (hc : NewtonState c) (ha : AllAnchored c) (dt : ℝ) (hdt : 0 < dt)
    (junk : Nat → ℝ × ℝ) (junkB : Nat → ℝ) (B : Nat → Nat → ℝ)
    (h : snesJacobian c dt junk junkB = some B) (y : Nat → ℝ)
    (hcol : ∀ j < c.numCells, 0 ≤ ∑ a ∈ range c.numCells, y a*B a j) :
    ∀ j < c.numCells, 0 ≤ y j := by
  by_contra hno
  push Not at hno
  obtain ⟨j0, hj0, hn0⟩ := hno
  obtain ⟨m, hm, hmin⟩ := exists_min_image (range c.numCells) y ⟨j0, mem_range.2 hj0⟩
  rw [mem_range] at hm
  have hmin : ∀ k < c.numCells, y m ≤ y k := fun k hk => hmin k (mem_range.2 hk)
  have hneg : y m < 0 := lt_of_le_of_lt (hmin j0 hj0) hn0
  obtain ⟨k, hk, hanch⟩ := ha m hm
  have key : k < c.numCells ∧ y k = y m := by
    clear hanch
    induction hk with
    | refl => exact ⟨hm, rfl⟩
    | tail _ hlast ih =>
      obtain ⟨hb, eb⟩ := ih
      refine ⟨joined_lt c hc.wf hlast, ?_⟩
      rw [← eb]
      exact (least c hc dt hdt junk junkB B h y _ hb (by rw [eb]; exact hneg)
        (by rw [eb]; exact hmin) (hcol _ hb)).2 _ hlast
  exact (least c hc dt hdt junk junkB B h y k key.1 (by rw [key.2]; exact hneg)
    (by rw [key.2]; exact hmin) (hcol _ key.1)).1 hanch

/-! ## The matrix -/

/-- The matrix of the `n` cells. -/
def toMatrix (n : Nat) (B : Nat → Nat → ℝ) : Matrix (Fin n) (Fin n) ℝ := fun i j => B i j

/-- Weights of the `n` cells, extended by zero. -/
def extend {n : Nat} (y : Fin n → ℝ) : Nat → ℝ := fun a => if h : a < n then y ⟨a, h⟩ else 0

theorem vecMul_column {n : Nat} (B : Nat → Nat → ℝ) (y : Fin n → ℝ) (j : Fin n) :
    Matrix.vecMul y (toMatrix n B) j = ∑ a ∈ range n, extend y a*B a j := by
  rw [← Fin.sum_univ_eq_sum_range (fun a => extend y a*B a j)]
  simp only [Matrix.vecMul, dotProduct, toMatrix, extend]
  apply Fintype.sum_congr
  intro a
  rw [dif_pos a.2]

theorem matrix_weights (c : Ctx) (hc : NewtonState c) (ha : AllAnchored c) (dt : ℝ) (hdt : 0 < dt)
    (junk : Nat → ℝ × ℝ) (junkB : Nat → ℝ) (B : Nat → Nat → ℝ)
    (h : snesJacobian c dt junk junkB = some B) (y : Fin c.numCells → ℝ)
    (hy : 0 ≤ Matrix.vecMul y (toMatrix c.numCells B)) : 0 ≤ y := by
  have := weights_nonneg c hc ha dt hdt junk junkB B h (extend y) (fun j hj => by
    have := hy ⟨j, hj⟩
    rw [vecMul_column] at this
    exact this)
  intro j
  have := this j j.2
  simp only [extend, dif_pos j.2] at this
  exact this

theorem matrix_regular (c : Ctx) (hc : NewtonState c) (ha : AllAnchored c) (dt : ℝ) (hdt : 0 < dt)
    (junk : Nat → ℝ × ℝ) (junkB : Nat → ℝ) (B : Nat → Nat → ℝ)
    (h : snesJacobian c dt junk junkB = some B) : (toMatrix c.numCells B).det ≠ 0 := by
  intro h0
  obtain ⟨v, hv, hz⟩ := Matrix.exists_vecMul_eq_zero_iff.2 h0
  apply hv
  apply le_antisymm
  · have : 0 ≤ -v := matrix_weights c hc ha dt hdt junk junkB B h (-v) (by
      rw [Matrix.neg_vecMul, hz, neg_zero])
    intro j
    have := this j
    simp only [Pi.zero_apply, Pi.neg_apply] at this ⊢
    linarith
  · exact matrix_weights c hc ha dt hdt junk junkB B h v (by rw [hz])

theorem solves_iff {n : Nat} (B : Nat → Nat → ℝ) (rhs x : Fin n → ℝ) :
    Solves B rhs x ↔ Matrix.mulVec (toMatrix n B) x = rhs := by
  constructor
  · intro h; funext i; exact h i
  · intro h i; exact congrFun h i

open Classical in
/-- Cells that are joined to none that is anchored: the weights 1 there and 0 elsewhere give zero. -/
theorem matrix_singular (c : Ctx) (hc : NewtonState c) (ha : ¬ AllAnchored c) (dt : ℝ) (hdt : 0 < dt)
    (junk : Nat → ℝ × ℝ) (junkB : Nat → ℝ) (B : Nat → Nat → ℝ)
    (h : snesJacobian c dt junk junkB = some B) : (toMatrix c.numCells B).det = 0 := by
  unfold AllAnchored at ha
  push Not at ha
  obtain ⟨j, hj, hno⟩ := ha
  let y : Nat → ℝ := fun k => if Relation.ReflTransGen (Joined c) j k then 1 else 0
  have hyj : y j = 1 := if_pos Relation.ReflTransGen.refl
  have hsame : ∀ k l, Joined c k l → y k = y l := by
    intro k l hkl
    have hlk : Joined c l k := by
      obtain ⟨i, hi, hI, hA, h⟩ := hkl
      exact ⟨i, hi, hI, hA, h.symm⟩
    by_cases hk : Relation.ReflTransGen (Joined c) j k
    · have hl := hk.tail hkl
      simp only [y, if_pos hk, if_pos hl]
    · have hl : ¬ Relation.ReflTransGen (Joined c) j l := fun hl => hk (hl.tail hlk)
      simp only [y, if_neg hk, if_neg hl]
  have hfree : ∀ k, y k ≠ 0 → ¬ Anchored c k := by
    intro k hk
    by_cases hr : Relation.ReflTransGen (Joined c) j k
    · exact hno k hr
    · exact absurd (if_neg hr) hk
  refine Matrix.exists_vecMul_eq_zero_iff.1 ⟨fun a => y a, ?_, ?_⟩
  · intro h0
    have := congrFun h0 ⟨j, hj⟩
    simp only [hyj, Pi.zero_apply] at this
    exact one_ne_zero this
  · funext b
    have e : Matrix.vecMul (fun a : Fin c.numCells => y a) (toMatrix c.numCells B) b =
        ∑ a ∈ range c.numCells, y a*B a b := by
      rw [← Fin.sum_univ_eq_sum_range (fun a => y a*B a b)]
      rfl
    rw [e, column c hc.wf hc.own dt junk junkB B h y b b.2]
    have z1 : ∀ i ∈ range c.numFaces, (if IsInternal c i then
        (y (c.face i).up.toNat - y (c.face i).dn.toNat)*
        ((if (b:ℕ) = (c.face i).up.toNat then (richardsJacobian c (c.face i) (junk i)).1 else 0) +
         (if (b:ℕ) = (c.face i).dn.toNat then (richardsJacobian c (c.face i) (junk i)).2 else 0))
          else 0) = 0 := by
      intro i hi
      rw [mem_range] at hi
      by_cases hI : IsInternal c i
      · rw [if_pos hI]
        rcases (hc.conducting.geom i hi).area.lt_or_eq with hA | hA
        · rw [hsame _ _ ⟨i, hi, hI, hA, Or.inl ⟨rfl, rfl⟩⟩, sub_self, zero_mul]
        · obtain ⟨p, q, hp, hq, e⟩ := internal_slopes c hc junk i hi hI
          rw [e, ← hA]
          simp
      · rw [if_neg hI]
    have z2 : ∀ i ∈ range c.numFaces, (if IsOpenBoundary c i ∧ (b:ℕ) = (c.face i).dn.toNat then
        y b*(-((boundaryJac c (c.face i) (junkB i)).getD 0)) else 0) = 0 := by
      intro i hi
      rw [mem_range] at hi
      by_cases hI : IsOpenBoundary c i ∧ (b:ℕ) = (c.face i).dn.toNat
      · rw [if_pos hI]
        by_cases hy : y b = 0
        · rw [hy, zero_mul]
        · obtain ⟨g1, g2⟩ := boundary_slope c hc junkB i hi hI.1
          have : ¬ SeenFace c i := fun hs => hfree b hy
            ((anchored_iff c b).2 (Or.inr ⟨i, hi, hI.1, hI.2, hs⟩))
          have : -((boundaryJac c (c.face i) (junkB i)).getD 0) = 0 :=
            le_antisymm (not_lt.1 (fun h => this (g2.1 h))) g1
          rw [this, mul_zero]
      · rw [if_neg hI]
    have z3 : y b*jacobianAccumulation c dt b = 0 := by
      by_cases hy : y b = 0
      · rw [hy, zero_mul]
      · obtain ⟨g1, g2⟩ := storage_slope c hc dt hdt b b.2
        have : jacobianAccumulation c dt b = 0 :=
          le_antisymm (not_lt.1 (fun h => hfree b hy (Or.inl (g2.1 h)))) g1
        rw [this, mul_zero]
    rw [sum_eq_zero z1, sum_eq_zero z2, z3]
    simp

/-- C182: the Newton system of the two-point method has exactly one solution, whatever its right-hand
side, precisely when every cell is joined to one whose equation depends on the level of its pressure. -/
theorem C182_solvable_iff (c : Ctx) (hc : NewtonState c) (dt : ℝ) (hdt : 0 < dt)
    (junk : Nat → ℝ × ℝ) (junkB : Nat → ℝ) (B : Nat → Nat → ℝ)
    (h : snesJacobian c dt junk junkB = some B) :
    AllAnchored c ↔ ∀ rhs : Fin c.numCells → ℝ, ∃! x : Fin c.numCells → ℝ, Solves B rhs x := by
  constructor
  · intro ha rhs
    have hu : IsUnit (toMatrix c.numCells B).det :=
      (matrix_regular c hc ha dt hdt junk junkB B h).isUnit
    refine ⟨Matrix.mulVec (toMatrix c.numCells B)⁻¹ rhs, ?_, ?_⟩
    · show Solves B rhs _
      rw [solves_iff, Matrix.mulVec_mulVec, Matrix.mul_nonsing_inv _ hu, Matrix.one_mulVec]
    · intro x hx
      rw [solves_iff] at hx
      rw [← hx, Matrix.mulVec_mulVec, Matrix.nonsing_inv_mul _ hu, Matrix.one_mulVec]
  · intro hs
    by_contra ha
    obtain ⟨v, hv, hz⟩ := Matrix.exists_mulVec_eq_zero_iff.2
      (matrix_singular c hc ha dt hdt junk junkB B h)
    obtain ⟨x, -, hx⟩ := hs 0
    have h1 := hx v ((solves_iff _ _ _).2 hz)
    have h2 := hx 0 ((solves_iff _ _ _).2 (Matrix.mulVec_zero _))
    exact hv (h1.trans h2.symm)

/-- C182: a Newton system whose right-hand side is nowhere negative lowers no pressure: more water in
some cells never means less pressure in any. -/
theorem C182_positive (c : Ctx) (hc : NewtonState c) (ha : AllAnchored c) (dt : ℝ) (hdt : 0 < dt)
    (junk : Nat → ℝ × ℝ) (junkB : Nat → ℝ) (B : Nat → Nat → ℝ)
    (h : snesJacobian c dt junk junkB = some B) (rhs x : Fin c.numCells → ℝ)
    (hx : Solves B rhs x) (hr : ∀ i, 0 ≤ rhs i) : ∀ i, 0 ≤ x i := by
  have hu : IsUnit (toMatrix c.numCells B).det :=
    (matrix_regular c hc ha dt hdt junk junkB B h).isUnit
  have hinv : ∀ i, 0 ≤ (toMatrix c.numCells B)⁻¹ i := by
    intro i
    apply matrix_weights c hc ha dt hdt junk junkB B h
    have e : Matrix.vecMul ((toMatrix c.numCells B)⁻¹ i) (toMatrix c.numCells B) =
        ((toMatrix c.numCells B)⁻¹*toMatrix c.numCells B) i := by
      funext j; rfl
    rw [e, Matrix.nonsing_inv_mul _ hu]
    intro j
    simp only [Pi.zero_apply, Matrix.one_apply]
    split_ifs <;> norm_num
  rw [solves_iff] at hx
  have : x = Matrix.mulVec (toMatrix c.numCells B)⁻¹ rhs := by
    rw [← hx, Matrix.mulVec_mulVec, Matrix.nonsing_inv_mul _ hu, Matrix.one_mulVec]
  intro i
  rw [this]
  show 0 ≤ ∑ j, (toMatrix c.numCells B)⁻¹ i j*rhs j
  exact sum_nonneg fun j _ => mul_nonneg (hinv i j) (hr j)

/-- C182: a boundary that water enters through is not seen by the matrix.  In a saturated model whose
only open faces are faces of prescribed pressure with water entering (or at rest), the Newton system
has no unique solution, although the prescribed pressures determine the flow. -/
theorem C182_inflow_singular (c : Ctx) (hc : NewtonState c) (hn : 0 < c.numCells)
    (saturated : ∀ j < c.numCells, (c.cells j).dSdP = 0)
    (inflow : ∀ i < c.numFaces, IsOpenBoundary c i → (c.face i).bc = .dirichlet ∧
      ∀ b, bndAt c (bndIndex (c.face i).up) = some b →
        0 ≤ dphi (dists c (c.face i)).1 (dists c (c.face i)).2 b (c.cells (c.face i).dn.toNat))
    (dt : ℝ) (hdt : 0 < dt) (junk : Nat → ℝ × ℝ) (junkB : Nat → ℝ) (B : Nat → Nat → ℝ)
    (h : snesJacobian c dt junk junkB = some B) :
    ∃ x : Fin c.numCells → ℝ, x ≠ 0 ∧ Solves B 0 x := by
  have key : ∀ k < c.numCells, ¬ Anchored c k := by
    intro k hk
    rw [anchored_iff]
    rintro (hs | ⟨i, hi, ho, hd, -, b, hb, hs⟩)
    · unfold Stores at hs
      rw [saturated k hk, mul_zero, zero_mul] at hs
      exact absurd hs (lt_irrefl _)
    · obtain ⟨e, hin⟩ := inflow i hi ho
      rcases hs with ⟨-, hs⟩ | ⟨hs, -⟩
      · exact absurd hs (not_lt.2 (hin b hb))
      · rw [e] at hs; exact absurd hs (by simp)
  have ha : ¬ AllAnchored c := by
    intro ha
    obtain ⟨k, hk, hanch⟩ := ha 0 hn
    refine key k ?_ hanch
    rcases Relation.ReflTransGen.cases_tail hk with e | ⟨m, -, hm⟩
    · rw [e]; exact hn
    · exact joined_lt c hc.wf hm
  obtain ⟨v, hv, hz⟩ := Matrix.exists_mulVec_eq_zero_iff.2
    (matrix_singular c hc ha dt hdt junk junkB B h)
  exact ⟨v, hv, (solves_iff _ _ _).2 hz⟩

namespace NewtonWitness

/-- A cell at pressure `p`; saturation rises with slope `s`. -/
def cell (p s : ℝ) : Side := ⟨p, 1/2, 1, 1, 1, s, 1, 0, 0⟩

/-- Two cells, of which only the first can take up water. -/
def duo : Ctx := { pair with cells := fun i => if i = 0 then cell 2 1 else cell 1 0 }

theorem duo_state : NewtonState duo := by
  refine ⟨⟨?_, ?_⟩, fun _ => rfl, ⟨fun i _ => ⟨?_, ?_, ?_, ?_, ?_⟩, fun i => ⟨?_, ?_, ?_⟩,
    fun j _ => ?_, fun b hb => ?_, fun j _ => ?_⟩, fun j _ => ?_, fun j _ => ?_, fun j _ => ?_,
    fun j _ => ?_, fun j _ => ?_⟩
  · intro i _ _; simp [duo, pair]
  · intro i _ h; exact absurd h.2.1 (by simp [duo, pair])
  · norm_num [duo, pair]
  · norm_num [duo, pair]
  · norm_num [duo, pair]
  · norm_num [duo, pair]
  · norm_num [duo, pair]
  · norm_num [duo, pair]
  · norm_num [duo, pair]
  · norm_num [duo, pair]
  · by_cases h : j = 0 <;> simp only [duo, h, if_true, if_false] <;>
      exact ⟨by norm_num [cell], by norm_num [cell], by norm_num [cell]⟩
  · exact absurd hb (by simp [duo, pair])
  · by_cases h : j = 0 <;> norm_num [duo, h, cell]
  · by_cases h : j = 0 <;> norm_num [duo, h, cell]
  · by_cases h : j = 0 <;> norm_num [duo, h, cell]
  · by_cases h : j = 0 <;> norm_num [duo, h, cell]
  · by_cases h : j = 0 <;> norm_num [duo, h, cell]
  · norm_num [duo, pair]

theorem duo_anchored : AllAnchored duo := by
  have h0 : Anchored duo 0 := Or.inl (by norm_num [Stores, duo, pair, cell])
  intro j hj
  have hj : j = 0 ∨ j = 1 := by
    have : j < 2 := hj
    omega
  refine ⟨0, ?_, h0⟩
  rcases hj with rfl | rfl
  · exact Relation.ReflTransGen.refl
  · exact Relation.ReflTransGen.single ⟨0, by norm_num [duo, pair], ⟨rfl, rfl⟩,
      by norm_num [duo, pair], Or.inr ⟨rfl, rfl⟩⟩

theorem duo_some : ∃ B, snesJacobian duo 1 (fun _ => (0, 0)) (fun _ => 0) = some B := by
  simp [snesJacobian, jacBoundaryLoop, duo, pair, forN]

/-- One saturated cell at pressure 1, fed from a boundary of pressure 2. -/
def fed : Ctx := { pair with
  numCells := 1, numBnd := 1
  face := fun _ => ⟨-1, 0, true, false, .dirichlet, ⟨0, 1, ⟨1, 0, 0⟩, 1⟩⟩
  cells := fun _ => cell 1 0, bnds := fun _ => cell 2 0 }

theorem fed_state : NewtonState fed := by
  refine ⟨⟨?_, ?_⟩, fun _ => rfl, ⟨fun i _ => ⟨?_, ?_, ?_, ?_, ?_⟩, fun i => ⟨?_, ?_, ?_⟩,
    fun j _ => ?_, fun b hb => ?_, fun j _ => ?_⟩, fun j _ => ?_, fun j _ => ?_, fun j _ => ?_,
    fun j _ => ?_, fun j _ => ?_⟩
  · intro i _ h; exact absurd h.2 (by simp [fed])
  · intro i _ _; simp [fed, pair]
  · norm_num [fed, pair]
  · norm_num [fed, pair]
  · norm_num [fed, pair]
  · norm_num [fed, pair]
  · norm_num [fed, pair]
  · norm_num [fed, pair]
  · norm_num [fed, pair]
  · norm_num [fed, pair]
  · exact ⟨by norm_num [fed, cell], by norm_num [fed, cell], by norm_num [fed, cell]⟩
  · exact ⟨by norm_num [fed, cell], by norm_num [fed, cell], by norm_num [fed, cell]⟩
  · norm_num [fed, cell]
  · norm_num [fed, cell]
  · norm_num [fed, cell]
  · norm_num [fed, cell]
  · norm_num [fed, cell]
  · norm_num [fed, pair]

theorem fed_some : ∃ B, snesJacobian fed 1 (fun _ => (0, 0)) (fun _ => 0) = some B := by
  simp [snesJacobian, jacBoundaryLoop, fed, pair, forN, boundaryJac, richardsBCJacobian, bndAt,
    bndIndex]

end NewtonWitness

open NewtonWitness in
/-- Non-vacuity of C182. -/
example : NewtonState duo ∧ AllAnchored duo ∧
    ∃ B, snesJacobian duo 1 (fun _ => (0, 0)) (fun _ => 0) = some B :=
  ⟨duo_state, duo_anchored, duo_some⟩

open NewtonWitness in
/-- Non-vacuity of `C182_inflow_singular`: the pressure of the boundary is higher than that of the
cell. -/
example : ∃ B, snesJacobian fed 1 (fun _ => (0, 0)) (fun _ => 0) = some B ∧
    ∃ x : Fin fed.numCells → ℝ, x ≠ 0 ∧ Solves B 0 x := by
  obtain ⟨B, hB⟩ := fed_some
  refine ⟨B, hB, C182_inflow_singular fed fed_state (by norm_num [fed]) (fun _ _ => rfl) ?_ 1 one_pos
    _ _ B hB⟩
  intro i _ _
  refine ⟨rfl, fun b hb => ?_⟩
  have e : b = cell 2 0 := by
    simp [bndAt, bndIndex, fed] at hb
    exact hb.symm
  subst e
  norm_num [dphi, dists, calculateDistances, fed, pair, cell, dot, denAve]

end

end TDy.Fvtpf.Props
