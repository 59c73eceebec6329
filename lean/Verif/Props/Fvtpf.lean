import Verif.Spec.Fvtpf
import Verif.Proofs.Fvtpf
import Verif.Model.Curves
import Mathlib.Tactic.NormNum
import Mathlib.Algebra.BigOperators.Field
import Mathlib.Algebra.Order.BigOperators.Ring.Finset

/-!
# C36-C40, C43, C44: fluxes of the two-point flux method

Sign convention of the code: the flux of a face is positive from the up to the down side; it is
added to the residual of the up cell and subtracted from that of the down cell.
-/

namespace TDy.Fvtpf.Props

open TDy.Fvtpf TDy.Fvtpf.Spec TDy.Fvtpf.Proofs TDy.Geo Finset

noncomputable section

/-! ## C36 : conservation -/

theorem sum_single (n k : Nat) (hk : k < n) (v : ℝ) :
    (∑ j ∈ range n, if j = k then v else 0) = v := by
  rw [sum_ite_eq' (range n) k]; simp [hk]

open Classical in
/-- Total over the cells owned by a rank of what one internal face adds. -/
theorem internal_total (c : Ctx) (wf : WellFormed c) (junk : Nat → ℝ) (i : Nat)
    (hi : i < c.numFaces) :
    (∑ j ∈ range c.numCells, internalTerm c junk i j) =
      if IsInternal c i then
        ((if c.isLocal (c.face i).up.toNat = true then 1 else 0) -
         (if c.isLocal (c.face i).dn.toNat = true then 1 else 0))
          *richardsResidual c (c.face i) (junk i)
      else 0 := by
  by_cases h : IsInternal c i
  · obtain ⟨h1, h2, h3, h4⟩ := wf.internal i hi h
    rw [if_pos h]
    simp only [internalTerm, if_pos (show (c.face i).isLocal = true ∧ (c.face i).isInternal = true from h)]
    rw [sum_add_distrib]
    have hu : (c.face i).up.toNat < c.numCells := by omega
    have hd : (c.face i).dn.toNat < c.numCells := by omega
    have e1 : (∑ j ∈ range c.numCells, if 0 ≤ (c.face i).up ∧ c.isLocal (c.face i).up.toNat = true ∧
        j = (c.face i).up.toNat then richardsResidual c (c.face i) (junk i) else 0) =
        (if c.isLocal (c.face i).up.toNat = true then 1 else 0)
          *richardsResidual c (c.face i) (junk i) := by
      by_cases hl : c.isLocal (c.face i).up.toNat = true
      · simp only [h1, hl, true_and, if_true, one_mul]; exact sum_single _ _ hu _
      · simp [hl]
    have e2 : (∑ j ∈ range c.numCells, if 0 ≤ (c.face i).dn ∧ c.isLocal (c.face i).dn.toNat = true ∧
        j = (c.face i).dn.toNat then -richardsResidual c (c.face i) (junk i) else 0) =
        -(if c.isLocal (c.face i).dn.toNat = true then 1 else 0)
          *richardsResidual c (c.face i) (junk i) := by
      by_cases hl : c.isLocal (c.face i).dn.toNat = true
      · simp only [h3, hl, true_and, if_true, neg_mul, one_mul]; exact sum_single _ _ hd _
      · simp [hl]
    rw [e1, e2]; ring
  · rw [if_neg h]
    apply sum_eq_zero
    intro j _
    simp only [internalTerm]
    exact if_neg h

open Classical in
theorem boundary_total (c : Ctx) (wf : WellFormed c) (i : Nat) (hi : i < c.numFaces) :
    (∑ j ∈ range c.numCells, boundaryTerm c i j) =
      if IsOpenBoundary c i then -((boundaryFlux c (c.face i)).getD 0) else 0 := by
  by_cases h : IsOpenBoundary c i
  · obtain ⟨h1, h2, _⟩ := wf.boundary i hi h
    rw [if_pos h]
    simp only [boundaryTerm]
    simp only [if_pos (show (c.face i).isLocal = true ∧ (c.face i).isInternal = false ∧
      (c.face i).bc ≠ .neumann from h)]
    exact sum_single _ _ (by omega) _
  · rw [if_neg h]
    apply sum_eq_zero
    intro j _
    simp only [boundaryTerm]
    exact if_neg h

open Classical in
/-- The total residual of the cells of one rank: storage minus sources, minus what enters through
the boundary faces, plus what the faces shared with other ranks carry out.  Whatever junk the
immobile faces read, internal faces between two cells of the rank cancel. -/
theorem C36_rank_total (c : Ctx) (wf : WellFormed c) (dtime : ℝ) (accumPrev junk R : Nat → ℝ)
    (h : snesFunction c dtime accumPrev junk = some R) :
    ∑ j ∈ range c.numCells, R j =
      (∑ j ∈ range c.numCells, if c.isLocal j = true
        then mass c j/dtime - accumPrev j - c.source j else 0)
      - (∑ i ∈ range c.numFaces, if IsOpenBoundary c i then (boundaryFlux c (c.face i)).getD 0 else 0)
      + ∑ i ∈ range c.numFaces, if IsInternal c i then
          ((if c.isLocal (c.face i).up.toNat = true then 1 else 0) -
           (if c.isLocal (c.face i).dn.toNat = true then 1 else 0))
            *richardsResidual c (c.face i) (junk i) else 0 := by
  have e : ∀ j ∈ range c.numCells, R j = _ := fun j _ => snesFunction_apply c dtime accumPrev junk R h j
  rw [sum_congr rfl e, sum_add_distrib, sum_add_distrib, sum_comm,
    sum_congr rfl (fun i hi => internal_total c wf junk i (mem_range.1 hi)),
    sum_comm (s := range c.numCells),
    sum_congr rfl (fun i hi => boundary_total c wf i (mem_range.1 hi))]
  have e2 : (∑ i ∈ range c.numFaces,
      if IsOpenBoundary c i then -((boundaryFlux c (c.face i)).getD 0) else 0) =
      -∑ i ∈ range c.numFaces, if IsOpenBoundary c i then (boundaryFlux c (c.face i)).getD 0 else 0 := by
    rw [← sum_neg_distrib]
    refine sum_congr rfl fun i _ => ?_
    split <;> simp
  have e3 : (∑ j ∈ range c.numCells, if j < c.numCells ∧ c.isLocal j = true
      then accumulation c dtime j - accumPrev j - c.source j else 0) =
      ∑ j ∈ range c.numCells, if c.isLocal j = true
        then mass c j/dtime - accumPrev j - c.source j else 0 := by
    refine sum_congr rfl fun j hj => ?_
    have : accumulation c dtime j = mass c j/dtime := by
      unfold accumulation mass; ring
    rw [this]
    simp [mem_range.1 hj]
  rw [e2, e3]; ring

open Classical in
/-- On one rank that owns every cell: the fluxes of internal faces do not appear at all. -/
theorem C36_conservation (c : Ctx) (wf : WellFormed c) (own : ∀ j, c.isLocal j = true)
    (dtime : ℝ) (accumPrev junk R : Nat → ℝ)
    (h : snesFunction c dtime accumPrev junk = some R) :
    ∑ j ∈ range c.numCells, R j =
      (∑ j ∈ range c.numCells, (mass c j/dtime - accumPrev j - c.source j))
      - ∑ i ∈ range c.numFaces,
          if IsOpenBoundary c i then (boundaryFlux c (c.face i)).getD 0 else 0 := by
  rw [C36_rank_total c wf dtime accumPrev junk R h]
  simp [own]

open Classical in
/-- Any distribution over `ranks` ranks: rank `r` works with the context `ctx r` (in the same
numbering of the cells, holding the values of the same global state), owns the cells with
`owner j = r`, and works on the internal faces touching its cells.  Summed over the ranks, the
fluxes of internal faces cancel, provided each is defined. -/
theorem C36_parallel (ranks numCells numFaces : Nat) (ctx : Nat → Ctx) (owner : Nat → Nat)
    (glob : Nat → Face) (flux : Nat → ℝ) (dtime : ℝ) (accumPrev junk R : Nat → Nat → ℝ)
    (hc : ∀ r, (ctx r).numCells = numCells) (hf : ∀ r, (ctx r).numFaces = numFaces)
    (wf : ∀ r < ranks, WellFormed (ctx r))
    (hown : ∀ j, owner j < ranks)
    (hlocal : ∀ r < ranks, ∀ j, (ctx r).isLocal j = true ↔ owner j = r)
    (hglob : ∀ r < ranks, ∀ i < numFaces, ((ctx r).face i).up = (glob i).up ∧
      ((ctx r).face i).dn = (glob i).dn ∧ ((ctx r).face i).isInternal = (glob i).isInternal)
    (htouch : ∀ r < ranks, ∀ i < numFaces, (glob i).isInternal = true →
      (((ctx r).face i).isLocal = true ↔
        owner (glob i).up.toNat = r ∨ owner (glob i).dn.toNat = r))
    (hflux : ∀ r < ranks, ∀ i < numFaces, IsInternal (ctx r) i →
      richardsResidual (ctx r) ((ctx r).face i) (junk r i) = flux i)
    (h : ∀ r < ranks, snesFunction (ctx r) dtime (accumPrev r) (junk r) = some (R r)) :
    ∑ r ∈ range ranks, ∑ j ∈ range numCells, R r j =
      ∑ r ∈ range ranks, ((∑ j ∈ range numCells, if owner j = r
        then mass (ctx r) j/dtime - accumPrev r j - (ctx r).source j else 0)
      - ∑ i ∈ range numFaces, if IsOpenBoundary (ctx r) i
          then (boundaryFlux (ctx r) ((ctx r).face i)).getD 0 else 0) := by
  have key : ∀ r ∈ range ranks, ∑ j ∈ range numCells, R r j =
      ((∑ j ∈ range numCells, if owner j = r
        then mass (ctx r) j/dtime - accumPrev r j - (ctx r).source j else 0)
      - ∑ i ∈ range numFaces, if IsOpenBoundary (ctx r) i
          then (boundaryFlux (ctx r) ((ctx r).face i)).getD 0 else 0) +
      ∑ i ∈ range numFaces, (if (glob i).isInternal = true then
        ((if owner (glob i).up.toNat = r then 1 else 0) -
         (if owner (glob i).dn.toNat = r then 1 else 0))*flux i else 0) := by
    intro r hr
    have hr := mem_range.1 hr
    have := C36_rank_total (ctx r) (wf r hr) dtime (accumPrev r) (junk r) (R r) (h r hr)
    rw [hc, hf] at this
    rw [this]
    congr 1
    · congr 1
      refine sum_congr rfl fun j _ => ?_
      exact if_congr (hlocal r hr j) rfl rfl
    · refine sum_congr rfl fun i hi => ?_
      have hi := mem_range.1 hi
      obtain ⟨g1, g2, g3⟩ := hglob r hr i hi
      by_cases hint : (glob i).isInternal = true
      · rw [if_pos hint]
        by_cases ht : ((ctx r).face i).isLocal = true
        · have hI : IsInternal (ctx r) i := ⟨ht, g3.trans hint⟩
          rw [if_pos hI, hflux r hr i hi hI, g1, g2,
            if_congr (hlocal r hr _) rfl rfl, if_congr (hlocal r hr _) rfl rfl]
        · have hI : ¬ IsInternal (ctx r) i := fun h => ht h.1
          have hn := (not_congr (htouch r hr i hi hint)).1 ht
          push Not at hn
          rw [if_neg hI, if_neg hn.1, if_neg hn.2]; ring
      · rw [if_neg hint, if_neg]
        intro h; exact hint (g3.symm.trans h.2)
  rw [sum_congr rfl key, sum_add_distrib]
  have z : ∑ r ∈ range ranks, ∑ i ∈ range numFaces, (if (glob i).isInternal = true then
        (((if owner (glob i).up.toNat = r then 1 else 0) -
         (if owner (glob i).dn.toNat = r then 1 else 0))*flux i : ℝ) else 0) = 0 := by
    rw [sum_comm]
    apply sum_eq_zero
    intro i _
    by_cases hint : (glob i).isInternal = true
    · simp only [hint, if_true]
      rw [← sum_mul, sum_sub_distrib, sum_ite_eq (range ranks), sum_ite_eq (range ranks)]
      simp [hown]
    · simp [hint]
  rw [z, add_zero]

open Classical in
/-- What a converged step means: if the residual is zero, the water in the domain changed by
exactly the time step times sources plus inflow through the boundary. -/
theorem C36_mass_balance (c prev : Ctx) (wf : WellFormed c) (own : ∀ j, c.isLocal j = true)
    (ownp : ∀ j, prev.isLocal j = true) (hn : prev.numCells = c.numCells)
    (dtime : ℝ) (hdt : dtime ≠ 0) (old junk : Nat → ℝ)
    (h : snesFunction c dtime (fillAccum prev dtime old) junk = some (fun _ => 0)) :
    (∑ j ∈ range c.numCells, mass c j) - ∑ j ∈ range c.numCells, mass prev j =
      dtime*((∑ j ∈ range c.numCells, c.source j) + ∑ i ∈ range c.numFaces,
          if IsOpenBoundary c i then (boundaryFlux c (c.face i)).getD 0 else 0) := by
  have hfill : ∀ n j, forN n (fun i a => if !prev.isLocal i then a
      else wr a i (accumulation prev dtime i)) old j =
      if j < n then mass prev j/dtime else old j := by
    intro n j
    have : (fun i a => if !prev.isLocal i then a else wr a i (accumulation prev dtime i)) =
        fun i a => wr a i (accumulation prev dtime i) := by
      funext i a; simp [ownp]
    rw [this, forN_fill]
    have : accumulation prev dtime j = mass prev j/dtime := by unfold accumulation mass; ring
    rw [this]
  have key := C36_conservation c wf own dtime _ junk _ h
  rw [sum_const_zero, sum_sub_distrib, sum_sub_distrib] at key
  have e : ∑ j ∈ range c.numCells, fillAccum prev dtime old j =
      ∑ j ∈ range c.numCells, mass prev j/dtime := by
    refine sum_congr rfl fun j hj => ?_
    unfold fillAccum
    rw [hfill, if_pos (by rw [hn]; exact mem_range.1 hj)]
  rw [e, ← Finset.sum_div, ← Finset.sum_div] at key
  set b := ∑ i ∈ range c.numFaces, if IsOpenBoundary c i then (boundaryFlux c (c.face i)).getD 0 else 0
  set s := ∑ j ∈ range c.numCells, c.source j
  field_simp at key
  linarith

/-- Non-vacuity of C36: two cells, one internal face, both mobile; the flux is not zero. -/
def pair : Ctx :=
  { numCells := 2, numFaces := 1, numBnd := 0
    face := fun _ => ⟨0, 1, true, true, .neumann, ⟨1, 1, ⟨1, 0, 0⟩, 1⟩⟩
    isLocal := fun _ => true, vol := fun _ => 1, por := fun _ => 1
    K0 := fun _ => ⟨1, 1, 1⟩, source := fun _ => 0, Sr := fun _ => 0
    cells := fun i => if i = 0 then ⟨2, 1, 1, 1, 1, 0, 0, 0, 0⟩ else ⟨1, 1, 1, 1, 1, 0, 0, 0, 0⟩
    bnds := fun _ => ⟨0, 0, 0, 0, 0, 0, 0, 0, 0⟩, gravity := ⟨0, 0, 0⟩, Pref := 0 }

theorem residual_mobile {Dq dg w area : ℝ} {up dn : Side} {old : ℝ} (hm : mobile up dn) :
    residual Dq dg w area up dn old =
      Dq*(if dphi dg w up dn ≥ 0.0 then up.Kr/up.vis else dn.Kr/dn.vis)*dphi dg w up dn*area
        *denAve w up dn := by
  unfold residual; rw [if_pos hm]

theorem pair_residual (old : ℝ) : richardsResidual pair (pair.face 0) old = 1/2 := by
  have hm : mobile (pair.cells 0) (pair.cells 1) := Or.inl (by norm_num [pair])
  show residual (faceDq pair (pair.face 0)) (dists pair (pair.face 0)).1
    (dists pair (pair.face 0)).2 1 (pair.cells 0) (pair.cells 1) old = 1/2
  rw [residual_mobile hm]
  norm_num [pair, faceDq, dists, calculateDistances, upDownPerm, directional, faceCoefficient,
    denAve, upweight, dphi, dot]

example : WellFormed pair ∧ (∀ j, pair.isLocal j = true) ∧
    ∃ R, snesFunction pair 1 (fun _ => 1) (fun _ => 0) = some R ∧ R 0 = 1/2 ∧ R 1 = -1/2 := by
  refine ⟨⟨?_, ?_⟩, fun _ => rfl, ?_⟩
  · intro i _ _; simp [pair]
  · intro i _ h; exact absurd h.2.1 (by simp [pair])
  · have hs : (boundaryLoop pair (internalLoop pair (fun _ => 0) fun _ => 0)).isSome = true :=
      (boundaryLoop_isSome _ _).2 (fun i _ _ h _ => absurd h (by simp [pair]))
    obtain ⟨R, hR⟩ := Option.isSome_iff_exists.1 hs
    refine ⟨_, by unfold snesFunction; rw [hR]; rfl, ?_, ?_⟩
    · rw [cellLoop_apply, boundaryLoop_apply _ _ _ hR, internalLoop_apply]
      have e : internalTerm pair (fun _ => 0) 0 0 = 1/2 := by
        unfold internalTerm
        simp only [pair_residual]; norm_num [pair]
      have e2 : boundaryTerm pair 0 0 = 0 := by unfold boundaryTerm; simp [pair]
      simp only [show pair.numFaces = 1 from rfl, sum_range_one, e, e2]
      norm_num [pair, accumulation]
    · rw [cellLoop_apply, boundaryLoop_apply _ _ _ hR, internalLoop_apply]
      have e : internalTerm pair (fun _ => 0) 0 1 = -(1/2) := by
        unfold internalTerm
        simp only [pair_residual]; norm_num [pair]
      have e2 : boundaryTerm pair 0 1 = 0 := by unfold boundaryTerm; simp [pair]
      simp only [show pair.numFaces = 1 from rfl, sum_range_one, e, e2]
      norm_num [pair, accumulation]

/-! ## C37 : face permeability -/

/-- The coefficient is the series conductance; it lies between the two permeabilities divided by
the distance, and does not depend on which side is called up. -/
theorem C37_series {dUp dDn Kup Kdn : ℝ} (hu : 0 ≤ dUp) (hd : 0 ≤ dDn) (hs : 0 < dUp + dDn)
    (hKu : 0 < Kup) (hKd : 0 < Kdn) :
    faceCoefficient dUp dDn Kup Kdn = series dUp dDn Kup Kdn ∧
    min Kup Kdn/(dUp + dDn) ≤ faceCoefficient dUp dDn Kup Kdn ∧
    faceCoefficient dUp dDn Kup Kdn ≤ max Kup Kdn/(dUp + dDn) ∧
    faceCoefficient dUp dDn Kup Kdn = faceCoefficient dDn dUp Kdn Kup ∧
    0 < faceCoefficient dUp dDn Kup Kdn := by
  have hpos : 0 < dUp*Kdn + dDn*Kup := by
    rcases hu.eq_or_lt with h | h
    · have : 0 < dDn := by linarith
      rw [← h]; nlinarith [mul_pos this hKu]
    · nlinarith [mul_pos h hKd, mul_nonneg hd hKu.le]
  unfold faceCoefficient series
  refine ⟨?_, ?_, ?_, ?_, by positivity⟩
  · have : dUp/Kup + dDn/Kdn = (dUp*Kdn + dDn*Kup)/(Kup*Kdn) := by field_simp
    rw [this, one_div_div]
  · rw [div_le_div_iff₀ hs hpos]
    rcases le_total Kup Kdn with h | h
    · rw [min_eq_left h]; nlinarith [mul_nonneg (mul_nonneg hd hKu.le) (sub_nonneg.2 h)]
    · rw [min_eq_right h]; nlinarith [mul_nonneg (mul_nonneg hu hKd.le) (sub_nonneg.2 h)]
  · rw [div_le_div_iff₀ hpos hs]
    rcases le_total Kup Kdn with h | h
    · rw [max_eq_right h]; nlinarith [mul_nonneg (mul_nonneg hu hKd.le) (sub_nonneg.2 h)]
    · rw [max_eq_left h]; nlinarith [mul_nonneg (mul_nonneg hd hKu.le) (sub_nonneg.2 h)]
  · rw [mul_comm Kup, add_comm (dUp*Kdn)]

/-- With one side permeable, the coefficient vanishes iff the other is impermeable (the side with
the boundary, at distance 0, has no say). -/
theorem C37_zero_iff {dUp dDn Kup Kdn : ℝ} (hu : 0 < dUp) (hd : 0 < dDn)
    (hKu : 0 ≤ Kup) (hKd : 0 ≤ Kdn) (hone : 0 < Kup ∨ 0 < Kdn) :
    faceCoefficient dUp dDn Kup Kdn = 0 ↔ Kup = 0 ∨ Kdn = 0 := by
  have hpos : 0 < dUp*Kdn + dDn*Kup := by
    rcases hone with h | h
    · nlinarith [mul_pos hd h, mul_nonneg hu.le hKd]
    · nlinarith [mul_pos hu h, mul_nonneg hd.le hKu]
  unfold faceCoefficient
  rw [div_eq_zero_iff]
  constructor
  · rintro (h | h)
    · exact mul_eq_zero.1 h
    · exact absurd h hpos.ne'
  · intro h; exact Or.inl (mul_eq_zero.2 h)

/-- The permeability a side contributes lies between the smallest and the largest of the tensor's
diagonal, for every direction. -/
theorem C37_directional {u : P3} (hu : u.x^2 + u.y^2 + u.z^2 = 1) {K : Perm} (hK : GoodPerm K)
    {lo hi : ℝ} (hlo : 0 < lo) (h1 : lo ≤ K.xx ∧ lo ≤ K.yy ∧ lo ≤ K.zz)
    (h2 : K.xx ≤ hi ∧ K.yy ≤ hi ∧ K.zz ≤ hi) :
    lo ≤ directional u K ∧ directional u K ≤ hi := by
  have hhi : 0 < hi := lt_of_lt_of_le hK.xx h2.1
  have up : ∀ {a k : ℝ}, 0 ≤ a → lo ≤ k → a/k ≤ a/lo := fun ha hk =>
    div_le_div_of_nonneg_left ha hlo hk
  have dn : ∀ {a k : ℝ}, 0 ≤ a → 0 < k → k ≤ hi → a/hi ≤ a/k := fun ha hk0 hk =>
    div_le_div_of_nonneg_left ha hk0 hk
  have s1 : u.x^2/K.xx + u.y^2/K.yy + u.z^2/K.zz ≤ 1/lo := by
    have := up (sq_nonneg u.x) h1.1
    have := up (sq_nonneg u.y) h1.2.1
    have := up (sq_nonneg u.z) h1.2.2
    have e : 1/lo = u.x^2/lo + u.y^2/lo + u.z^2/lo := by rw [← add_div, ← add_div, hu]
    linarith
  have s2 : 1/hi ≤ u.x^2/K.xx + u.y^2/K.yy + u.z^2/K.zz := by
    have := dn (sq_nonneg u.x) hK.xx h2.1
    have := dn (sq_nonneg u.y) hK.yy h2.2.1
    have := dn (sq_nonneg u.z) hK.zz h2.2.2
    have e : 1/hi = u.x^2/hi + u.y^2/hi + u.z^2/hi := by rw [← add_div, ← add_div, hu]
    linarith
  have hp : 0 < u.x^2/K.xx + u.y^2/K.yy + u.z^2/K.zz := lt_of_lt_of_le (by positivity) s2
  have e : directional u K = 1/(u.x^2/K.xx + u.y^2/K.yy + u.z^2/K.zz) := by
    unfold directional; norm_num
  rw [e]
  constructor
  · rw [le_div_iff₀ hp]
    rw [le_div_iff₀ hlo] at s1; linarith
  · rw [div_le_iff₀ hp]
    rw [div_le_iff₀ hhi] at s2; linarith

theorem directional_pos {u : P3} (hu : u.x^2 + u.y^2 + u.z^2 = 1) {K : Perm} (hK : GoodPerm K) :
    0 < directional u K := by
  obtain ⟨a, b, d⟩ := hK
  have hm : 0 < min K.xx (min K.yy K.zz) := lt_min a (lt_min b d)
  have := (C37_directional hu ⟨a, b, d⟩ hm
    ⟨min_le_left _ _, (min_le_right _ _).trans (min_le_left _ _),
      (min_le_right _ _).trans (min_le_right _ _)⟩
    (hi := max K.xx (max K.yy K.zz))
    ⟨le_max_left _ _, (le_max_left _ _).trans (le_max_right _ _),
      (le_max_right _ _).trans (le_max_right _ _)⟩).1
  linarith

/-- The coefficient of every face of the mesh is positive. -/
theorem faceDq_pos (c : Ctx) (f : Face) (hg : GoodGeom f.geom) (hK : ∀ i, GoodPerm (c.K0 i)) :
    0 < faceDq c f := by
  unfold faceDq
  have h1 : GoodPerm (upDownPerm c f).1 := by unfold upDownPerm; dsimp only; split <;> exact hK _
  have h2 : GoodPerm (upDownPerm c f).2 := by unfold upDownPerm; dsimp only; split <;> exact hK _
  exact (C37_series hg.dUp hg.dDn hg.dist (directional_pos hg.u h1) (directional_pos hg.u h2)).2.2.2.2

/-- Non-vacuity of C37: sand against clay. -/
example : faceCoefficient 1 3 10 1 = 10/31 := by norm_num [faceCoefficient]
example : directional ⟨0.6, 0.8, 0⟩ ⟨1, 4, 9⟩ = 1/(0.52) := by norm_num [directional]

/-! ## C38 : antisymmetry -/

theorem weight_eq (gravity : P3) (g : Geom) (hd : g.dUp + g.dDn ≠ 0) :
    (calculateDistances gravity g).2 = g.dDn/(g.dUp + g.dDn) := by
  unfold calculateDistances
  simp only
  rw [mul_div_cancel₀ _ hd]
  congr 1 <;> ring

theorem weights_swap (gravity : P3) (g : Geom) (hd : g.dUp + g.dDn ≠ 0) :
    calculateDistances gravity (swapGeom g) =
      (-(calculateDistances gravity g).1, 1 - (calculateDistances gravity g).2) := by
  have h2 : g.dDn + g.dUp ≠ 0 := by rwa [add_comm]
  refine Prod.ext ?_ ?_
  · simp only [calculateDistances, swapGeom, dot]; ring
  · rw [weight_eq _ _ (by simpa [swapGeom] using h2)]
    show g.dUp/(g.dDn + g.dUp) = 1 - (calculateDistances gravity g).2
    rw [weight_eq _ _ hd, add_comm g.dDn g.dUp]
    field_simp
    ring

theorem mobile_comm (a b : Side) : mobile a b ↔ mobile b a := or_comm

/-- Swapping the sides of a face negates the flux, unless both sides are drier than 1e-8 (then
both orders take the density of what they call the down side). -/
theorem C38_antisymmetric_partial (c : Ctx) (f : Face) (old old' : ℝ)
    (hu : 0 ≤ f.up) (hdn : 0 ≤ f.dn) (hd : f.geom.dUp + f.geom.dDn ≠ 0)
    (hm : mobile (c.cells f.up.toNat) (c.cells f.dn.toNat))
    (hdry : ¬ ((c.cells f.up.toNat).S < 1e-8 ∧ (c.cells f.dn.toNat).S < 1e-8)) :
    richardsResidual c (swapFace f) old' = -richardsResidual c f old := by
  have hDq : faceDq c (swapFace f) = faceDq c f := by
    have hdir : ∀ K, directional (swapGeom f.geom).u K = directional f.geom.u K := by
      intro K; simp [directional, swapGeom]
    unfold faceDq upDownPerm
    simp only [swapFace, hu, hdn, if_true, hdir]
    simp only [swapGeom, faceCoefficient]
    rw [mul_comm (directional _ (c.K0 f.dn.toNat)), add_comm (f.geom.dDn * _)]
  have hw := weights_swap c.gravity f.geom hd
  have hds : dists c (swapFace f) = (-(dists c f).1, 1 - (dists c f).2) := hw
  unfold richardsResidual
  rw [hDq, hds]
  simp only [swapFace]
  set a := c.cells f.up.toNat
  set b := c.cells f.dn.toNat
  set D := (dists c f).1
  set w := (dists c f).2
  have huw : upweight (1 - w) b a = 1 - upweight w a b := by
    unfold upweight
    by_cases h1 : a.S < 1e-8
    · have h2 : ¬ b.S < 1e-8 := fun h => hdry ⟨h1, h⟩
      simp only [h1, h2, if_true, if_false]; norm_num
    · by_cases h2 : b.S < 1e-8
      · simp only [h1, h2, if_true, if_false]; norm_num
      · simp only [h1, h2, if_false]
  have hden : denAve (1 - w) b a = denAve w a b := by
    unfold denAve; rw [huw]; norm_num; ring
  have hphi : dphi (-D) (1 - w) b a = -dphi D w a b := by
    unfold dphi; rw [hden]; ring
  unfold residual
  rw [if_pos hm, if_pos ((mobile_comm _ _).1 hm)]
  simp only [hden, hphi, swapGeom]
  rcases lt_trichotomy (dphi D w a b) 0 with h | h | h
  · rw [if_pos (by norm_num; linarith), if_neg (by norm_num; linarith)]; ring
  · rw [h]; simp
  · rw [if_neg (by norm_num; linarith), if_pos (by norm_num; linarith)]; ring

/-- The exception: two dry cells of different densities, with a relative permeability that is not
small; the face carries a different flux when seen from the other side. -/
theorem C38_both_dry : ∃ (c : Ctx) (f : Face), 0 ≤ f.up ∧ 0 ≤ f.dn ∧ GoodGeom f.geom ∧
    (∀ i, Physical (c.cells i)) ∧ mobile (c.cells f.up.toNat) (c.cells f.dn.toNat) ∧
    richardsResidual c (swapFace f) 0 ≠ -richardsResidual c f 0 := by
  let c : Ctx := { pair with
    cells := fun i => if i = 0 then ⟨2, 0, 1, 1, 2, 0, 0, 0, 0⟩ else ⟨1, 0, 1, 1, 1, 0, 0, 0, 0⟩ }
  refine ⟨c, pair.face 0, by simp [pair], by simp [pair],
    ⟨by norm_num [pair], by norm_num [pair], by norm_num [pair], by norm_num [pair], by
      norm_num [pair]⟩, ?_, Or.inl (by norm_num [c, pair]), ?_⟩
  · intro i
    by_cases h : i = 0
    · exact ⟨by norm_num [c, h], by norm_num [c, h], by norm_num [c, h]⟩
    · exact ⟨by norm_num [c, h], by norm_num [c, h], by norm_num [c, h]⟩
  · have e1 : richardsResidual c (pair.face 0) 0 = 1/2 := by
      have hm : mobile (c.cells 0) (c.cells 1) := Or.inl (by norm_num [c])
      show residual (faceDq c (pair.face 0)) (dists c (pair.face 0)).1
        (dists c (pair.face 0)).2 1 (c.cells 0) (c.cells 1) 0 = 1/2
      rw [residual_mobile hm]
      norm_num [c, pair, faceDq, dists, calculateDistances, upDownPerm, directional,
        faceCoefficient, denAve, upweight, dphi, dot]
    have e2 : richardsResidual c (swapFace (pair.face 0)) 0 = -1 := by
      have hm : mobile (c.cells 1) (c.cells 0) := Or.inl (by norm_num [c])
      show residual (faceDq c (swapFace (pair.face 0))) (dists c (swapFace (pair.face 0))).1
        (dists c (swapFace (pair.face 0))).2 1 (c.cells 1) (c.cells 0) 0 = -1
      rw [residual_mobile hm]
      norm_num [c, pair, faceDq, dists, calculateDistances, upDownPerm, directional,
        faceCoefficient, denAve, upweight, dphi, dot, swapFace, swapGeom]
    rw [e1, e2]; norm_num

/-- Non-vacuity of C38. -/
example : richardsResidual pair (swapFace (pair.face 0)) 0 = -(1/2) := by
  rw [C38_antisymmetric_partial pair (pair.face 0) 0 0 (by simp [pair]) (by simp [pair])
    (by norm_num [pair]) (Or.inl (by norm_num [pair])) (by norm_num [pair]), pair_residual]

/-! ## C39 : direction of the flux -/

theorem weight_mem (gravity : P3) (g : Geom) (hg : GoodGeom g) :
    0 ≤ (calculateDistances gravity g).2 ∧ (calculateDistances gravity g).2 ≤ 1 := by
  obtain ⟨h1, h2, h3, -, -⟩ := hg
  rw [weight_eq _ _ h3.ne']
  exact ⟨by positivity, by rw [div_le_one h3]; linarith⟩

theorem denAve_pos {w : ℝ} (h0 : 0 ≤ w) (h1 : w ≤ 1) {a b : Side} (ha : 0 < a.rho)
    (hb : 0 < b.rho) : 0 < denAve w a b := by
  have hw : 0 ≤ upweight w a b ∧ upweight w a b ≤ 1 := by
    unfold upweight; split_ifs <;> norm_num <;> exact ⟨h0, h1⟩
  unfold denAve
  norm_num
  nlinarith [mul_nonneg hw.1 ha.le, mul_nonneg (sub_nonneg.2 hw.2) hb.le,
    mul_pos ha hb, hw.1, hw.2]

/-- Water flows down the potential `P - rho g z`, with the mobility of the side it leaves; there
is no flux exactly when the potentials are equal or that side is immobile. -/
theorem C39_upwinded (c : Ctx) (f : Face) (old : ℝ) (hg : GoodGeom f.geom) (hA : 0 < f.geom.area)
    (hK : ∀ i, GoodPerm (c.K0 i))
    (ha : Physical (c.cells f.up.toNat)) (hb : Physical (c.cells f.dn.toNat))
    (hm : mobile (c.cells f.up.toNat) (c.cells f.dn.toNat)) :
    let up := c.cells f.up.toNat
    let dn := c.cells f.dn.toNat
    let den := denAve (dists c f).2 up dn
    let drive := up.P - dn.P - den*(dot c.gravity f.geom.u*(f.geom.dUp + f.geom.dDn))
    0 < den ∧
    (0 < drive → ∃ k, 0 < k ∧ richardsResidual c f old = k*(up.Kr/up.vis)*drive) ∧
    (drive < 0 → ∃ k, 0 < k ∧ richardsResidual c f old = k*(dn.Kr/dn.vis)*drive) ∧
    (drive = 0 → richardsResidual c f old = 0) := by
  intro up dn den drive
  have hw := weight_mem c.gravity f.geom hg
  have hden : 0 < den := denAve_pos hw.1 hw.2 ha.rho hb.rho
  have hD := faceDq_pos c f hg hK
  have hdrive : dphi (dists c f).1 (dists c f).2 up dn = drive := rfl
  have hr : richardsResidual c f old =
      faceDq c f*(if drive ≥ 0.0 then up.Kr/up.vis else dn.Kr/dn.vis)*drive*f.geom.area*den := by
    unfold richardsResidual residual
    rw [if_pos hm]
    rfl
  refine ⟨hden, ?_, ?_, ?_⟩
  · intro h
    refine ⟨faceDq c f*f.geom.area*den, by positivity, ?_⟩
    rw [hr, if_pos (by norm_num; exact h.le)]; ring
  · intro h
    refine ⟨faceDq c f*f.geom.area*den, by positivity, ?_⟩
    rw [hr, if_neg (by norm_num; exact h)]; ring
  · intro h
    rw [hr, h]; ring

/-- Hydrostatic equilibrium: with a constant density, pressures `p0 - rho g z` at the heights of
the two cells drive no flux. -/
theorem C39_hydrostatic (c : Ctx) (f : Face) (old p0 rho g zUp zDn : ℝ)
    (hgrav : c.gravity = ⟨0, 0, g⟩)
    (hz : f.geom.u.z*(f.geom.dUp + f.geom.dDn) = zDn - zUp)
    (hu : (c.cells f.up.toNat).P = p0 - rho*g*zUp) (hd : (c.cells f.dn.toNat).P = p0 - rho*g*zDn)
    (hru : (c.cells f.up.toNat).rho = rho) (hrd : (c.cells f.dn.toNat).rho = rho)
    (hm : mobile (c.cells f.up.toNat) (c.cells f.dn.toNat)) :
    richardsResidual c f old = 0 := by
  have hden : denAve (dists c f).2 (c.cells f.up.toNat) (c.cells f.dn.toNat) = rho := by
    unfold denAve; rw [hru, hrd]; norm_num; ring
  have hdist : (dists c f).1 = g*(zDn - zUp) := by
    rw [← hz]
    simp only [dists, calculateDistances, dot, hgrav]; ring
  have h0 : dphi (dists c f).1 (dists c f).2 (c.cells f.up.toNat) (c.cells f.dn.toNat) = 0 := by
    unfold dphi; rw [hden, hdist, hu, hd]; ring
  unfold richardsResidual residual
  rw [if_pos hm]
  simp only [h0]; ring

/-- Non-vacuity of C39: see `pair_residual`; its state meets the hypotheses. -/
example : GoodGeom (pair.face 0).geom ∧ Physical (pair.cells 0) ∧ Physical (pair.cells 1) ∧
    mobile (pair.cells 0) (pair.cells 1) ∧ GoodPerm (pair.K0 0) := by
  refine ⟨⟨?_, ?_, ?_, ?_, ?_⟩, ⟨?_, ?_, ?_⟩, ⟨?_, ?_, ?_⟩, Or.inl ?_, ⟨?_, ?_, ?_⟩⟩ <;>
    norm_num [pair]

/-! ## C40 : seepage faces -/

/-- With the boundary pressure at or below the reference pressure, a seepage face never carries
water into the cell below it. -/
theorem C40_no_inflow (c : Ctx) (f : Face) (v : ℝ) (hg : GoodGeom f.geom)
    (hK : ∀ i, GoodPerm (c.K0 i)) (hb : ∀ i, Physical (c.bnds i))
    (hc : Physical (c.cells f.dn.toNat))
    (hbelow : (c.bnds (bndIndex f.up).toNat).P ≤ c.Pref)
    (h : richardsSeepageBCResidual c f 0 = some v) : v ≤ 0 := by
  unfold richardsSeepageBCResidual bndAt at h
  split at h
  swap
  · simp at h
  simp only [Option.map_some, Option.some.injEq] at h
  rw [← h]
  set b := c.bnds (bndIndex f.up).toNat with hbdef
  set d := c.cells f.dn.toNat
  have hw := weight_mem c.gravity f.geom hg
  have hden : 0 < denAve (dists c f).2 b d := denAve_pos hw.1 hw.2 (hb _).rho hc.rho
  have hD := faceDq_pos c f hg hK
  unfold seepageResidual
  split
  · simp only
    have hp : b.P - c.Pref < 1e-8 := by
      have : b.P - c.Pref ≤ 0 := by linarith
      exact lt_of_le_of_lt this (by norm_num)
    set x := dphi (dists c f).1 (dists c f).2 b d
    have hq : ∃ y ≤ 0, (if x > 0.0 ∧ b.P - c.Pref < 1e-8 then (0.0:ℝ) else x) = y := by
      by_cases hx : x > 0.0
      · exact ⟨0, le_refl _, by rw [if_pos ⟨hx, hp⟩]; norm_num⟩
      · refine ⟨x, by norm_num at hx; exact hx, ?_⟩
        rw [if_neg (fun h => hx h.1)]
    obtain ⟨y, hy, hyeq⟩ := hq
    simp only [hyeq]
    split
    · rename_i h0
      have : y = 0 := le_antisymm hy (by norm_num at h0; exact h0)
      rw [this]; simp
    · have : 0 ≤ d.Kr/d.vis := div_nonneg hc.Kr hc.vis.le
      have h1 : 0 ≤ faceDq c f*(d.Kr/d.vis) := mul_nonneg hD.le this
      have h2 : faceDq c f*(d.Kr/d.vis)*y ≤ 0 := mul_nonpos_of_nonneg_of_nonpos h1 hy
      have h3 := mul_nonpos_of_nonpos_of_nonneg h2 hg.area
      exact mul_nonpos_of_nonpos_of_nonneg h3 hden.le
  · exact le_refl _

/-- Otherwise the face behaves like a prescribed-pressure face: with the boundary pressure above
the reference (by 1e-8 Pa), or with water flowing out, the flux is the two-point flux. -/
theorem C40_unmodified (Pref Dq distGravity w area : ℝ) (up dn : Side) (old : ℝ)
    (h : Pref + 1e-8 ≤ up.P ∨ dphi distGravity w up dn ≤ 0) :
    seepageResidual Pref Dq distGravity w area up dn old =
      residual Dq distGravity w area up dn old := by
  unfold seepageResidual residual
  split
  · have e : (if dphi distGravity w up dn > 0.0 ∧ up.P - Pref < 1e-8 then (0.0:ℝ)
        else dphi distGravity w up dn) = dphi distGravity w up dn := by
      rw [if_neg]
      rintro ⟨h1, h2⟩
      rcases h with h | h
      · linarith
      · norm_num at h1; linarith
    simp only [e]
  · rfl

/-- Non-vacuity of C40: water leaves through a seepage face at the reference pressure. -/
def seep : Ctx :=
  { pair with
    numBnd := 1
    face := fun _ => ⟨-1, 0, true, false, .seepage, ⟨0, 1, ⟨0, 0, -1⟩, 1⟩⟩
    bnds := fun _ => ⟨0, 1, 1, 1, 1, 0, 0, 0, 0⟩ }

example : richardsSeepageBCResidual seep (seep.face 0) 0 = some (-2) ∧
    (seep.bnds 0).P ≤ seep.Pref ∧ Physical (seep.bnds 0) := by
  have hm : mobile (seep.bnds 0) (seep.cells 0) := Or.inl (by norm_num [seep])
  have hf : seep.face 0 = ⟨-1, 0, true, false, .seepage, ⟨0, 1, ⟨0, 0, -1⟩, 1⟩⟩ := rfl
  refine ⟨?_, by norm_num [seep, pair], ⟨?_, ?_, ?_⟩⟩
  · unfold richardsSeepageBCResidual bndAt
    rw [hf]
    simp only [bndIndex, neg_neg, sub_self, Int.toNat_zero]
    rw [if_pos (by simp [seep])]
    simp only [Option.map_some, Option.some.injEq]
    unfold seepageResidual
    rw [if_pos hm]
    norm_num [seep, pair, faceDq, dists, calculateDistances, upDownPerm, directional,
      faceCoefficient, denAve, upweight, dphi, dot]
  all_goals norm_num [seep]

/-! ## C43 : the flux is defined -/

/-- When either side is mobile the flux does not depend on what the output variable held. -/
theorem C43_defined_partial (c : Ctx) (f : Face) (old old' : ℝ)
    (hm : mobile (c.cells f.up.toNat) (c.cells f.dn.toNat)) :
    richardsResidual c f old = richardsResidual c f old' := by
  unfold richardsResidual residual; rw [if_pos hm, if_pos hm]

/-- When neither side is mobile nothing is computed: the flux is whatever the uninitialised
variable held. -/
theorem C43_immobile_undefined (c : Ctx) (f : Face) (old : ℝ)
    (hm : ¬ mobile (c.cells f.up.toNat) (c.cells f.dn.toNat)) :
    richardsResidual c f old = old := by
  unfold richardsResidual residual; rw [if_neg hm]

/-- So the residual of a mesh with such a face depends on uninitialised memory: changing only the
junk by `x` changes the residual of the up cell by `x`. -/
theorem C43_residual_depends_on_junk (c : Ctx) (own : ∀ j, c.isLocal j = true) (dtime : ℝ)
    (accumPrev junk R R' : Nat → ℝ) (x : ℝ) (i : Nat) (hi : i < c.numFaces)
    (hI : IsInternal c i) (h0 : 0 ≤ (c.face i).up) (hne : (c.face i).up.toNat ≠ (c.face i).dn.toNat)
    (hm : ¬ mobile (c.cells (c.face i).up.toNat) (c.cells (c.face i).dn.toNat))
    (h : snesFunction c dtime accumPrev junk = some R)
    (h' : snesFunction c dtime accumPrev (wr junk i (junk i + x)) = some R') :
    R' (c.face i).up.toNat = R (c.face i).up.toNat + x := by
  rw [snesFunction_apply _ _ _ _ _ h, snesFunction_apply _ _ _ _ _ h']
  have hsplit : ∀ jk : Nat → ℝ, ∑ k ∈ range c.numFaces, internalTerm c jk k (c.face i).up.toNat =
      internalTerm c jk i (c.face i).up.toNat +
        ∑ k ∈ (range c.numFaces).erase i, internalTerm c jk k (c.face i).up.toNat := by
    intro jk; exact (add_sum_erase _ _ (mem_range.2 hi)).symm
  rw [hsplit, hsplit]
  have hrest : ∑ k ∈ (range c.numFaces).erase i,
        internalTerm c (wr junk i (junk i + x)) k (c.face i).up.toNat =
      ∑ k ∈ (range c.numFaces).erase i, internalTerm c junk k (c.face i).up.toNat := by
    refine sum_congr rfl fun k hk => ?_
    have : k ≠ i := (mem_erase.1 hk).1
    unfold internalTerm
    rw [wr_other _ _ this]
  rw [hrest]
  have hterm : ∀ jk : Nat → ℝ, internalTerm c jk i (c.face i).up.toNat = jk i := by
    intro jk
    unfold internalTerm
    simp only [if_pos (show (c.face i).isLocal = true ∧ (c.face i).isInternal = true from hI)]
    rw [if_pos ⟨h0, own _, trivial⟩, if_neg (fun h => hne h.2.2), C43_immobile_undefined c _ _ hm]
    ring
  rw [hterm, hterm, wr_same]; ring

/-- The state is reachable: two cells whose relative permeability (Irmay, exponent 3) at an
effective saturation of 0.001 is 1e-9. -/
example : ¬ mobile ⟨0, 0.001, (Curves.irmay 3 0.001).k, 1, 1, 0, 0, 0, 0⟩
    ⟨0, 0.001, (Curves.irmay 3 0.001).k, 1, 1, 0, 0, 0, 0⟩ := by
  have : (Curves.irmay 3 0.001).k = 1e-9 := by
    unfold Curves.irmay
    rw [if_neg (by norm_num)]
    simp only
    rw [show (3:ℝ) = ((3:ℕ):ℝ) by norm_num, Real.rpow_natCast]; norm_num
  unfold mobile
  simp only [this]
  norm_num

/-! ## C44 : addressing of boundary faces -/

theorem number_fst (isInternal : Nat → Bool) (n : Nat) :
    (numberBoundaryFaces n isInternal).1 = ((range n).filter fun i => isInternal i = false).card := by
  unfold numberBoundaryFaces
  induction n with
  | zero => simp [forN]
  | succ n ih =>
    simp only [forN]
    rw [range_add_one, filter_insert]
    cases h : isInternal n
    · simp only [Bool.false_eq_true, if_false, if_true]
      rw [ih, card_insert_of_notMem (by simp)]
    · simpa [h] using ih

theorem number_snd (isInternal : Nat → Bool) (n i : Nat) (hi : i < n) (hb : isInternal i = false) :
    (numberBoundaryFaces n isInternal).2 i =
      -(((numberBoundaryFaces i isInternal).1 : ℤ) + 1) := by
  induction n with
  | zero => omega
  | succ n ih =>
    have step : (numberBoundaryFaces (n+1) isInternal).2 =
        if isInternal n then (numberBoundaryFaces n isInternal).2
        else wr (numberBoundaryFaces n isInternal).2 n
          (-((((numberBoundaryFaces n isInternal).1 + 1 : Nat)) : ℤ)) := by
      simp only [numberBoundaryFaces, forN]
      split <;> rfl
    rw [step]
    rcases Nat.lt_succ_iff_lt_or_eq.1 hi with h | h
    · split
      · exact ih h
      · rw [wr_other _ _ (by omega)]; exact ih h
    · subst h
      rw [if_neg (by simp [hb]), wr_same]; push_cast; ring

/-- Boundary faces get ids `-1, -2, ...`; the decoding `-id-1` maps them one to one onto
`0 .. numBnd-1`, in the order of the faces. -/
theorem C44_encoding (isInternal : Nat → Bool) (numFaces : Nat) :
    let s := numberBoundaryFaces numFaces isInternal
    (∀ i < numFaces, isInternal i = false → 0 ≤ bndIndex (s.2 i) ∧ bndIndex (s.2 i) < s.1) ∧
    (∀ i < numFaces, ∀ j < numFaces, isInternal i = false → isInternal j = false →
      bndIndex (s.2 i) = bndIndex (s.2 j) → i = j) ∧
    (∀ b < s.1, ∃ i < numFaces, isInternal i = false ∧ bndIndex (s.2 i) = b) := by
  intro s
  have idx : ∀ i < numFaces, isInternal i = false →
      bndIndex (s.2 i) = (numberBoundaryFaces i isInternal).1 := by
    intro i hi hb
    show bndIndex ((numberBoundaryFaces numFaces isInternal).2 i) = _
    rw [number_snd _ _ _ hi hb]; unfold bndIndex; ring
  have mono : ∀ i j, i < j → isInternal i = false →
      (numberBoundaryFaces i isInternal).1 < (numberBoundaryFaces j isInternal).1 := by
    intro i j hij hb
    rw [number_fst, number_fst]
    apply card_lt_card
    rw [ssubset_iff_of_subset]
    · refine ⟨i, mem_filter.2 ⟨mem_range.2 hij, hb⟩, fun h => ?_⟩
      exact absurd (mem_range.1 (mem_filter.1 h).1) (lt_irrefl i)
    · intro k hk
      rw [mem_filter, mem_range] at hk ⊢
      exact ⟨by omega, hk.2⟩
  refine ⟨?_, ?_, ?_⟩
  · intro i hi hb
    rw [idx i hi hb]
    exact ⟨by positivity, by exact_mod_cast mono i numFaces hi hb⟩
  · intro i hi j hj hbi hbj h
    rw [idx i hi hbi, idx j hj hbj] at h
    have h : (numberBoundaryFaces i isInternal).1 = (numberBoundaryFaces j isInternal).1 := by
      exact_mod_cast h
    rcases lt_trichotomy i j with hl | hl | hl
    · have := mono i j hl hbi; omega
    · exact hl
    · have := mono j i hl hbj; omega
  · intro b hb
    -- the first face at which the count exceeds b
    have hex : ∃ n, b < (numberBoundaryFaces n isInternal).1 := ⟨numFaces, hb⟩
    classical
    have hspec := Nat.find_spec hex
    have hmin : ∀ m < Nat.find hex, ¬ b < (numberBoundaryFaces m isInternal).1 :=
      fun m hm => Nat.find_min hex hm
    have hle : Nat.find hex ≤ numFaces := Nat.find_min' hex hb
    generalize Nat.find hex = n at hspec hmin hle
    cases n with
    | zero => simp [numberBoundaryFaces, forN] at hspec
    | succ n =>
      have hn := hmin n (by omega)
      have hs : (numberBoundaryFaces (n+1) isInternal).1 =
          if isInternal n then (numberBoundaryFaces n isInternal).1
          else (numberBoundaryFaces n isInternal).1 + 1 := by
        simp only [numberBoundaryFaces, forN]; split <;> rfl
      have hbn : isInternal n = false := by
        cases h : isInternal n
        · rfl
        · rw [hs, h] at hspec; exact absurd hspec hn
      refine ⟨n, by omega, hbn, ?_⟩
      rw [idx n (by omega) hbn]
      rw [hs, hbn] at hspec
      simp at hspec
      have : (numberBoundaryFaces n isInternal).1 = b := by omega
      rw [this]

/-- Seepage residual, seepage Jacobian and Dirichlet Jacobian use the entry of their own face. -/
theorem C44_own_entry_partial (c : Ctx) (f : Face) (b : Nat) (hid : f.up = -((b:ℤ) + 1))
    (hb : b < c.numBnd) (old : ℝ) :
    richardsSeepageBCResidual c f old = some (seepageResidual c.Pref (faceDq c f) (dists c f).1
      (dists c f).2 f.geom.area (c.bnds b) (c.cells f.dn.toNat) old) ∧
    richardsSeepageBCJacobian c f old = some (seepageJacobian c.Pref (faceDq c f) (dists c f).1
      (dists c f).2 f.geom.area (c.bnds b) (c.cells f.dn.toNat) old) ∧
    richardsBCJacobian c f old = some (bcJacobian (faceDq c f) (dists c f).1
      (dists c f).2 f.geom.area (c.bnds b) (c.cells f.dn.toNat) old) := by
  have e : bndAt c (bndIndex f.up) = some (c.bnds b) := by
    unfold bndAt bndIndex
    rw [hid]
    rw [if_pos (by constructor <;> omega)]
    congr 2
    omega
  refine ⟨?_, ?_, ?_⟩
  · unfold richardsSeepageBCResidual; rw [e]; rfl
  · unfold richardsSeepageBCJacobian; rw [e]; rfl
  · unfold richardsBCJacobian; rw [e]; rfl

/-- The Dirichlet residual uses the entry two further on: the values of another boundary face, or
memory past the end of the arrays for the last two faces. -/
theorem C44_dirichlet_wrong_entry (c : Ctx) (f : Face) (b : Nat) (hid : f.up = -((b:ℤ) + 1))
    (old : ℝ) :
    (b + 2 < c.numBnd → richardsBCResidual c f old = some (residual (faceDq c f) (dists c f).1
      (dists c f).2 f.geom.area (c.bnds (b+2)) (c.cells f.dn.toNat) old)) ∧
    (c.numBnd ≤ b + 2 → richardsBCResidual c f old = none) := by
  have e : bndIndexResidual f.up = (b:ℤ) + 2 := by unfold bndIndexResidual; rw [hid]; ring
  unfold richardsBCResidual bndAt
  rw [e]
  constructor
  · intro h
    rw [if_pos (by constructor <;> omega)]
    have : ((b:ℤ) + 2).toNat = b + 2 := by omega
    rw [this]; rfl
  · intro h
    rw [if_neg (by omega)]; rfl

/-- So with prescribed pressure on one of the last two boundary faces, evaluating the residual is
undefined behaviour: in particular whenever all boundary faces have prescribed pressure. -/
theorem C44_dirichlet_undefined (c : Ctx) (dtime : ℝ) (accumPrev junk : Nat → ℝ) (i b : Nat)
    (hi : i < c.numFaces) (hl : (c.face i).isLocal = true) (hint : (c.face i).isInternal = false)
    (hbc : (c.face i).bc = .dirichlet) (hid : (c.face i).up = -((b:ℤ) + 1))
    (hlast : c.numBnd ≤ b + 2) :
    snesFunction c dtime accumPrev junk = none := by
  have hnone : boundaryLoop c (internalLoop c junk fun _ => 0) = none := by
    by_contra hne
    have hs := Option.isSome_iff_ne_none.2 hne
    have := (boundaryLoop_isSome c _).1 hs i hi hl hint (by rw [hbc]; simp)
    unfold boundaryFlux at this
    rw [hbc] at this
    simp only at this
    rw [(C44_dirichlet_wrong_entry c (c.face i) b hid _).2 hlast] at this
    simp at this
  unfold snesFunction
  rw [hnone]; rfl

/-- Non-vacuity of C44: faces 0 and 2 of three are boundary faces. -/
example : bndIndex ((numberBoundaryFaces 3 fun i => i == 1).2 2) = 1 := by
  simp [numberBoundaryFaces, forN, wr, bndIndex]

end

end TDy.Fvtpf.Props
