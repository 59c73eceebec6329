import Mathlib.Tactic.IntervalCases
import Verif.Props.Wy
import Verif.Props.WyBalance

/-!
# A mesh that meets the hypotheses of C76, C77 and C119-C121, and meshes that break C77 and C119
-/

namespace TDy.Fe.Props.WyWitness

open TDy.Fe TDy.Fe.Spec TDy.Fe.Proofs Finset

noncomputable section

/-- Signed face of corner `q` of a cell: left, right, bottom and top face, normals along the axes. -/
def sides (l r b t : Int) (k : Nat) : Int :=
  if k % 2 = 0 then (if k / 2 % 2 = 0 then -l else r) else (if k / 4 = 0 then -b else t)

/-- Two squares of side two next to each other.  Cells 0 and 1, vertices 2 to 4 below and 5 to 7 above,
faces 8 to 10 upright, 11 and 12 below, 13 and 14 above.  Pressure 3 is given all around, and there
is a source of 1. -/
def strip : Wy where
  dim := 2
  nq := 4
  nfv := 2
  nCells := 2
  fStart := 8
  fEnd := 15
  vStart := 2
  vEnd := 8
  star := fun v => [[], [], [2, 8, 11, 0], [3, 9, 11, 12, 0, 1], [4, 10, 12, 1], [5, 8, 13, 0],
    [6, 9, 13, 14, 0, 1], [7, 10, 14, 1]].getD v []
  vmap := fun c q => [[2, 3, 5, 6], [3, 4, 6, 7]].getD c [] |>.getD q 0
  emap := fun c k => if c = 0 then sides 8 9 11 13 k else sides 9 10 12 14 k
  fmap := fun f k => [[2, 5], [3, 6], [4, 7], [2, 3], [3, 4], [5, 6], [6, 7]].getD (f - 8) [] |>.getD k 0
  V := fun k => if k < 2 then 4 else 2
  X := fun k i => if i = 0 then ([1, 3, 0, 0, 0, 0, 0, 0, 0, 2, 4, 1, 3, 1, 3].getD k 0 : Nat)
    else ([1, 1, 0, 0, 0, 0, 0, 0, 1, 1, 1, 0, 0, 2, 2].getD k 0 : Nat)
  N := fun f i => if f < 11 then (if i = 0 then 1 else 0) else (if i = 0 then 0 else 1)
  cone := fun c => [[11, 9, 13, 8], [12, 10, 14, 9]].getD c []
  bc := fun f => f != 9
  hasPressure := true
  pb := fun _ => 3
  hasForcing := true
  force := fun _ _ => 1
  DFinv := fun _ _ k => if k = 0 ∨ k = 3 then 1 else 0
  J := fun _ _ => 1
  global := fun c => c
  debug := true
  tol := 1/10^12

def cor (v c : Nat) : Nat := ([2, 3, 5, 6].idxOf v)*(1 - c) + ([3, 4, 6, 7].idxOf v)*c

def pl (f v : Nat) : Nat :=
  ([[2, 5], [3, 6], [4, 7], [2, 3], [3, 4], [5, 6], [6, 7]].getD (f - 8) []).idxOf v

def perm : Nat → Nat → ℝ := fun _ k => if k = 0 ∨ k = 3 then 1 else 0

theorem strip_star : ∀ v, strip.vStart ≤ v → v < strip.vEnd →
    Star strip v (cor v) := by
  intro v h1 h2
  change 2 ≤ v at h1
  change v < 8 at h2
  interval_cases v <;> constructor <;> decide

theorem strip_place : ∀ v, strip.vStart ≤ v → v < strip.vEnd →
    ∀ f ∈ strip.faces v, Place strip f v (pl f v) := by
  intro v h1 h2
  change 2 ≤ v at h1
  change v < 8 at h2
  unfold Place
  interval_cases v <;> decide

theorem out_eq (c f : Nat) : strip.outSign c f = if 0 < (strip.N f 0*(strip.X f 0 - strip.X c 0)
    + strip.N f 1*(strip.X f 1 - strip.X c 1)) then 1
    else if (strip.N f 0*(strip.X f 0 - strip.X c 0)
    + strip.N f 1*(strip.X f 1 - strip.X c 1)) < 0 then -1 else 0 := by
  have h : aDotBMinusC (strip.N f) (strip.X f) (strip.X c) strip.dim
      = strip.N f 0*(strip.X f 0 - strip.X c 0) + strip.N f 1*(strip.X f 1 - strip.X c 1) := by
    show forN 2 _ _ = _
    simp [forN]
  unfold Wy.outSign
  rw [h]
  rcases lt_trichotomy (strip.N f 0*(strip.X f 0 - strip.X c 0)
    + strip.N f 1*(strip.X f 1 - strip.X c 1)) 0 with h | h | h
  · rw [if_pos h, if_neg h.not_gt, if_pos h]
  · rw [h]; simp
  · rw [if_neg h.not_gt, if_neg h.ne', if_pos h]

theorem strip_map : ∀ c < strip.nCells, 0 ≤ strip.global c → CellMap strip pl c := by
  intro c hc _
  change c < 2 at hc
  refine ⟨?_, ?_, ?_, ?_, rfl⟩
  · interval_cases c <;> decide
  · interval_cases c <;> decide
  · intro q hq d hd
    change q < 4 at hq
    change d < 2 at hd
    refine ⟨?_, ?_⟩
    · interval_cases c <;> interval_cases q <;> interval_cases d <;> decide
    · rw [out_eq]
      interval_cases c <;> interval_cases q <;> interval_cases d <;>
        norm_num [Wy.face, Wy.sign, strip, sides]
  · interval_cases c <;> decide

theorem strip_regular : ∀ c < strip.nCells, Regular strip perm c := by
  intro c _
  have hm : toMatrix 2 (fun k => if k = 0 ∨ k = 3 then (1:ℝ) else 0) = 1 := by
    ext i j
    fin_cases i <;> fin_cases j <;> simp [toMatrix]
  refine ⟨?_, fun q _ => ⟨one_pos, ?_⟩⟩
  · intro x hx
    change Fin 2 → ℝ at x
    show 0 < dotProduct x ((toMatrix 2 _).mulVec x)
    unfold perm
    rw [hm, Matrix.one_mulVec]
    rw [dotProduct, Fin.sum_univ_two]
    by_contra hn
    apply hx
    have h0 : x 0 = 0 := by nlinarith [mul_self_nonneg (x 0), mul_self_nonneg (x 1)]
    have h1 : x 1 = 0 := by nlinarith [mul_self_nonneg (x 0), mul_self_nonneg (x 1)]
    funext i
    fin_cases i
    · exact h0
    · exact h1
  · show (toMatrix 2 _).det ≠ 0
    have : toMatrix 2 (strip.DFinv c q) = 1 := hm
    rw [this, Matrix.det_one]
    exact one_ne_zero

theorem strip_cov : ∀ v, strip.vStart ≤ v → v < strip.vEnd → ∀ f ∈ strip.faces v,
    Covered strip v (cor v) f := by
  intro v h1 h2
  change 2 ≤ v at h1
  change v < 8 at h2
  have key : ∀ f ∈ strip.faces v, ∃ c ∈ strip.cells v, ∃ i < 2, strip.face c (cor v c) i = f
      ∧ strip.emap c (cor v c*2 + i) ≠ 0 ∧ 2 ≤ f := by
    interval_cases v <;> decide
  intro f hf
  obtain ⟨c, hc, i, hi, hfi, hs, h2⟩ := key f hf
  refine ⟨c, hc, i, hi, hfi, ?_, ?_⟩
  · unfold Wy.sign
    rw [Int.cast_ne_zero]
    intro h0
    exact hs (Int.sign_eq_zero_iff_zero.1 h0)
  · show (if f < 2 then (4:ℝ) else 2) ≠ 0
    rw [if_neg (by omega)]
    norm_num

theorem strip_size : ∀ v, strip.vStart ≤ v → v < strip.vEnd →
    (strip.faces v).length ≤ 12 ∧ (strip.cells v).length ≤ 12 := by
  intro v h1 h2
  change 2 ≤ v at h1
  change v < 8 at h2
  interval_cases v <;> decide

theorem strip_opposite : ∀ v, strip.vStart ≤ v → v < strip.vEnd → ∀ f ∈ strip.faces v,
    ¬ Wy.given strip f → Opposite strip v (cor v) f := by
  intro v h1 h2
  change 2 ≤ v at h1
  change v < 8 at h2
  have key : ∀ f ∈ strip.faces v, ¬ (strip.bc f = true ∧ strip.hasPressure = true) →
      f = 9 ∧ (v = 3 ∨ v = 6) := by
    interval_cases v <;> decide
  intro f hf hg
  obtain ⟨rfl, rfl | rfl⟩ := key f hf hg
  · have c0 : cor 3 0 = 1 := by decide
    have c1 : cor 3 1 = 0 := by decide
    have : (strip.cells 3).toFinset = {0, 1} := by decide
    unfold Opposite
    rw [this, sum_pair (by decide)]
    show ∑ i ∈ range 2, _ + ∑ i ∈ range 2, _ = (0:ℝ)
    simp only [sum_range_succ, range_zero, sum_empty, c0, c1]
    norm_num [Wy.face, Wy.sign, strip, sides]
  · have c0 : cor 6 0 = 3 := by decide
    have c1 : cor 6 1 = 2 := by decide
    have : (strip.cells 6).toFinset = {0, 1} := by decide
    unfold Opposite
    rw [this, sum_pair (by decide)]
    show ∑ i ∈ range 2, _ + ∑ i ∈ range 2, _ = (0:ℝ)
    simp only [sum_range_succ, range_zero, sum_empty, c0, c1]
    norm_num [Wy.face, Wy.sign, strip, sides]

theorem strip_numbers : GlobalNumbers strip id := ⟨by decide, fun _ _ _ _ h => h⟩

/-- Also if the second cell belongs to another process. -/
example : GlobalNumbers { strip with global := fun c => if c = 0 then 0 else -2 } id :=
  ⟨by decide, fun _ _ _ _ h => h⟩

theorem strip_symm : ∀ c < strip.nCells, (toMatrix strip.dim (perm c)).IsSymm := by
  intro c _
  show (toMatrix 2 (perm c)).IsSymm
  ext i j
  fin_cases i <;> fin_cases j <;> simp [toMatrix, perm]

/-- The strip is assembled and its velocities are found, and they satisfy Darcy's law. -/
example (l : Local) (u : Nat → ℝ) (vel : Nat → Nat → ℝ) : ∃ l' vel',
    localElementCompute strip perm l = .ok l' ∧ wyRecoverVelocity strip l'.A u vel = .ok vel' ∧
    ∀ v, 2 ≤ v → v < 8 → ∀ f ∈ strip.faces v,
      DarcyAt strip perm u v (cor v) (fun f => vel' f (pl f v)) f := by
  obtain ⟨l', s', hs, vel', hv⟩ := C119_regular_partial strip perm cor strip_star strip_regular strip_cov
    strip_size l ⟨fun _ _ => 0, fun _ => 0⟩ u vel
  exact ⟨l', vel', (system_parts hs).1, hv, C76_darcy_law strip perm l l' u vel vel' cor pl strip_star
    strip_place (system_parts hs).1 hv⟩

/-- Pressure 3 everywhere is at rest. -/
theorem strip_rest (l : Local) (vel : Nat → Nat → ℝ) : ∃ l' vel',
    localElementCompute strip perm l = .ok l' ∧ wyRecoverVelocity strip l'.A (fun _ => 3) vel = .ok vel' ∧
    ∀ v, 2 ≤ v → v < 8 → ∀ f ∈ strip.faces v, vel' f (pl f v) = 0 := by
  obtain ⟨l', s', hs, vel', hv⟩ := C119_regular_partial strip perm cor strip_star strip_regular strip_cov
    strip_size l ⟨fun _ _ => 0, fun _ => 0⟩ (fun _ => 3) vel
  exact ⟨l', vel', (system_parts hs).1, hv, C76_uniform_pressure_no_flow strip l'.A 3 (fun _ => 3) vel vel'
    cor pl strip_star strip_place (fun _ _ => rfl) (fun _ _ => rfl) strip_opposite hv⟩

/-- The matrix of the strip is symmetric. -/
example (l : Local) : ∃ l' s', wyComputeSystem strip perm l ⟨fun _ _ => 0, fun _ => 0⟩ = .ok (l', s')
    ∧ s'.K 0 1 = s'.K 1 0 := by
  obtain ⟨l', s', hs, _, _⟩ := C119_regular_partial strip perm cor strip_star strip_regular strip_cov
    strip_size l ⟨fun _ _ => 0, fun _ => 0⟩ (fun _ => 3) (fun _ _ => 0)
  exact ⟨l', s', hs, C76_symmetric strip perm l l' _ s' cor id strip_numbers strip_star strip_symm
    (fun _ _ _ _ _ _ => rfl) hs 0 (by decide) 1 (by decide) (by decide) (by decide)⟩

theorem residual_exists (porosity dSdP u dpdt : Nat → ℝ) (l : Local) (vel : Nat → Nat → ℝ) (R : Nat → ℝ) :
    ∃ R', wyResidual strip perm porosity dSdP u dpdt l vel R = .ok R' := by
  obtain ⟨l', s', hs, vel', hv⟩ := C119_regular_partial strip perm cor strip_star strip_regular strip_cov
    strip_size l ⟨fun _ _ => 0, fun _ => 0⟩ u vel
  unfold wyResidual
  rw [(system_parts hs).1]
  dsimp only
  rw [hv]
  exact ⟨_, rfl⟩

/-- The residual of the strip agrees with its system, for all pressures and rates. -/
example (u dpdt : Nat → ℝ) (l : Local) : ∃ l' s' R',
    wyComputeSystem strip perm l ⟨fun _ _ => 0, fun _ => 0⟩ = .ok (l', s') ∧
    wyResidual strip perm (fun _ => 1) (fun _ => 1) u dpdt l (fun _ _ => 0) (fun _ => 0) = .ok R' ∧
    |R' 0 - (1*1*dpdt 0 + ((∑ c' ∈ range 2, s'.K 0 c'*u c') - s'.F 0))|
      ≤ ∑ q ∈ range 4, threshold strip l'.A (strip.vmap 0 q)
        *∑ c' ∈ (strip.cells (strip.vmap 0 q)).toFinset, |u c'| := by
  obtain ⟨l', s', hs, _, _⟩ := C119_regular_partial strip perm cor strip_star strip_regular strip_cov
    strip_size l ⟨fun _ _ => 0, fun _ => 0⟩ u (fun _ _ => 0)
  obtain ⟨R', hR⟩ := residual_exists (fun _ => 1) (fun _ => 1) u dpdt l (fun _ _ => 0) (fun _ => 0)
  refine ⟨l', s', R', hs, hR, ?_⟩
  exact C120_residual_is_system strip perm cor pl id strip_numbers l l' l _ s' _ _ u dpdt _ _ R'
    (by show (0:ℝ) ≤ 1/10^12; positivity) strip_star strip_place strip_map
    ⟨fun _ _ => rfl, fun _ => rfl⟩ hs hR 0 (by decide) (by decide)

/-- The faces around the strip. -/
def around : Finset Nat := {8, 10, 11, 12, 13, 14}

theorem strip_inside : ∀ f ∉ around, ∑ c ∈ range strip.nCells,
    (if f ∈ strip.cone c then strip.outSign c f else 0) = 0 := by
  intro f hf
  show ∑ c ∈ range 2, _ = (0:ℝ)
  have h0 : f ∈ strip.cone 0 ↔ f = 11 ∨ f = 9 ∨ f = 13 ∨ f = 8 := by
    show f ∈ [11, 9, 13, 8] ↔ _
    simp
  have h1 : f ∈ strip.cone 1 ↔ f = 12 ∨ f = 10 ∨ f = 14 ∨ f = 9 := by
    show f ∈ [12, 10, 14, 9] ↔ _
    simp
  simp only [around, mem_insert, mem_singleton, not_or] at hf
  rw [sum_range_succ, sum_range_succ, range_zero, sum_empty]
  by_cases h9 : f = 9
  · subst h9
    rw [if_pos (by decide), if_pos (by decide), out_eq, out_eq]
    norm_num [strip]
  · rw [if_neg (by rw [h0]; omega), if_neg (by rw [h1]; omega)]
    norm_num

/-- The strip conserves water. -/
example (u dpdt : Nat → ℝ) (l : Local) (R' : Nat → ℝ)
    (hR : wyResidual strip perm (fun _ => 1) (fun _ => 1) u dpdt l (fun _ _ => 0) (fun _ => 0) = .ok R') :
    ∃ l' vel', localElementCompute strip perm l = .ok l' ∧ wyRecoverVelocity strip l'.A u (fun _ _ => 0)
      = .ok vel' ∧ ∑ c ∈ range 2, R' c = (∑ c ∈ range 2, 1*1*dpdt c)
        + (∑ f ∈ around, ∑ c ∈ range 2, if f ∈ strip.cone c then
          strip.outSign c f*strip.V f*((∑ j ∈ range 2, vel' f j)/(2:Nat)) else 0)
        - ∑ c ∈ range 2, cellSource strip c :=
  C121_mass_balance strip perm l _ _ u dpdt _ _ R' around (by decide) (by decide) strip_inside hR

/-- A steady state of the strip. -/
example (l : Local) (R' : Nat → ℝ)
    (hR : wyResidual strip perm (fun _ => 1) (fun _ => 1) (fun _ => 3) (fun _ => 0) l (fun _ _ => 0)
      (fun _ => 0) = .ok R') :
    ∃ l' vel', localElementCompute strip perm l = .ok l' ∧ wyRecoverVelocity strip l'.A (fun _ => 3)
      (fun _ _ => 0) = .ok vel' ∧ R' 1 = 4*(1*1*0) + cellOutflow strip vel' 1 - cellSource strip 1 := by
  obtain ⟨l', vel', h1, h2, h3⟩ := C77_unit_volume_or_steady_partial strip perm l _ _ _ _ _ _ R' (by decide) hR
  exact ⟨l', vel', h1, h2, h3 1 (by decide) (by decide) (.inr rfl)⟩

/-- C77 is violated: with pressure 3 everywhere, nothing flows.  Each cell has volume 4, storage 1 and a
source of 4 in total, so its pressure rises at rate 1.  The residual vanishes at rate 4 instead, where the
water in the cell would grow by 16. -/
theorem C77_violated : ∃ (w : Wy) (K : Nat → Nat → ℝ) (u : Nat → ℝ) (l l' : Local)
    (vel vel' : Nat → Nat → ℝ) (R' : Nat → ℝ),
    (∀ c < w.nCells, Regular w K c) ∧ (∀ c < w.nCells, w.V c = ∑ q ∈ range w.nq, w.J c q) ∧
    wyResidual w K (fun _ => 1) (fun _ => 1) u (fun _ => 4) l vel (fun _ => 0) = .ok R' ∧
    localElementCompute w K l = .ok l' ∧ wyRecoverVelocity w l'.A u vel = .ok vel' ∧
    ∀ c < w.nCells, R' c = 0 ∧ w.V c*(1*1*4) + cellOutflow w vel' c - cellSource w c = 12 := by
  obtain ⟨R', hR⟩ := residual_exists (fun _ => 1) (fun _ => 1) (fun _ => 3) (fun _ => 4)
    ⟨fun _ _ _ => 0, fun _ => 0⟩ (fun _ _ => 0) (fun _ => 0)
  obtain ⟨l', vel', hl, hv, hRc⟩ := residual_parts hR
  obtain ⟨l2, vel2, hl2, hv2, hz⟩ := strip_rest ⟨fun _ _ _ => 0, fun _ => 0⟩ (fun _ _ => 0)
  have e1 : l2 = l' := Res.ok.inj (hl2.symm.trans hl)
  subst e1
  have e2 : vel2 = vel' := Res.ok.inj (hv2.symm.trans hv)
  subst e2
  refine ⟨strip, perm, fun _ => 3, ⟨fun _ _ _ => 0, fun _ => 0⟩, l2, fun _ _ => 0, vel2, R', strip_regular,
    ?_, hR, hl, hv, ?_⟩
  · intro c hc
    change c < 2 at hc
    show (if c < 2 then (4:ℝ) else 2) = ∑ q ∈ range 4, 1
    rw [if_pos hc]
    norm_num
  · intro c hc
    have hdiv : wyDivergence strip vel2 c = 0 := by
      have hm := strip_map c hc (Int.natCast_nonneg c)
      rw [divergence_corners strip_star strip_place hm]
      refine sum_eq_zero fun q hq => sum_eq_zero fun d hd => ?_
      obtain ⟨h1, h2, h3⟩ := hm.vertex q (mem_range.1 hq)
      have hmem := (strip_star _ h1 h2).face_mem c h3 d (mem_range.1 hd)
      rw [← (strip_star _ h1 h2).cor_only c h3 q (mem_range.1 hq) rfl] at hmem
      rw [hz _ h1 h2 _ hmem, mul_zero]
    have hsrc : cellSource strip c = 4 := by
      show (if true = true then ∑ q ∈ range 4, (1:ℝ)*1 else 0) = 4
      norm_num
    have hVc : strip.V c = 4 := if_pos hc
    have hcone : (strip.cone c).Nodup := (strip_map c hc (Int.natCast_nonneg c)).cone_nodup
    refine ⟨?_, ?_⟩
    · rw [hRc c, if_pos ⟨hc, Int.natCast_nonneg c⟩, hdiv, local_source (local_ok hl c hc), hsrc]
      norm_num
    · rw [← divergence_outflow strip vel2 hcone, hdiv, hsrc, hVc]
      norm_num

/-! ### Thirteen cells around a vertex -/

/-- Thirteen quadrilaterals around vertex 13.  Cells 0 to 12; vertices 14 to 26 at the far ends of the
spokes, 27 to 39 opposite the centre; faces 40 to 52 are the spokes, 53 to 65 and 66 to 78 the two outer
sides of each cell.  Corner 0 of each cell is the centre. -/
def fan : Wy where
  dim := 2
  nq := 4
  nfv := 2
  nCells := 13
  fStart := 40
  fEnd := 79
  vStart := 13
  vEnd := 40
  star := fun v => if v = 13 then (List.range 13).map (40 + ·) ++ List.range 13
    else if v < 27 then [v, v + 26, v + 39, (v - 14 + 12) % 13 + 66, v - 14, (v - 14 + 12) % 13]
    else [v, v + 26, v + 39, v - 27]
  vmap := fun c q => [13, 14 + c, 14 + (c + 1) % 13, 27 + c].getD q 0
  emap := fun c k => if k % 2 = 0 then (if k / 2 % 2 = 0 then -(40 + (c + 1) % 13 : Nat) else (53 + c : Nat))
    else (if k / 4 = 0 then (40 + c : Nat) else (66 + c : Nat))
  fmap := fun f k => if f < 53 then (if k = 0 then 13 else f - 26)
    else if f < 66 then (if k = 0 then f - 39 else f - 26)
    else (if k = 0 then f - 39 else 14 + (f - 66 + 1) % 13)
  V := fun _ => 1
  X := fun _ _ => 0
  N := fun _ _ => 0
  cone := fun c => [40 + c, 53 + c, 66 + c, 40 + (c + 1) % 13]
  bc := fun f => decide (53 ≤ f)
  hasPressure := true
  pb := fun _ => 0
  hasForcing := false
  force := fun _ _ => 0
  DFinv := fun _ _ k => if k = 0 ∨ k = 3 then 1 else 0
  J := fun _ _ => 1
  global := fun c => c
  debug := true
  tol := 1/10^12

/-- Which corner of cell `c` a vertex is. -/
def fanCor (v c : Nat) : Nat := [13, 14 + c, 14 + (c + 1) % 13, 27 + c].idxOf v

theorem fan_star : ∀ v, fan.vStart ≤ v → v < fan.vEnd → Star fan v (fanCor v) := by
  intro v h1 h2
  change 13 ≤ v at h1
  change v < 40 at h2
  interval_cases v <;> constructor <;> decide

theorem fan_cov : ∀ v, fan.vStart ≤ v → v < fan.vEnd → ∀ f ∈ fan.faces v, Covered fan v (fanCor v) f := by
  intro v h1 h2
  change 13 ≤ v at h1
  change v < 40 at h2
  have key : ∀ f ∈ fan.faces v, ∃ c ∈ fan.cells v, ∃ i < 2, fan.face c (fanCor v c) i = f
      ∧ fan.emap c (fanCor v c*2 + i) ≠ 0 := by
    interval_cases v <;> decide
  intro f hf
  obtain ⟨c, hc, i, hi, hfi, hs⟩ := key f hf
  refine ⟨c, hc, i, hi, hfi, ?_, one_ne_zero⟩
  unfold Wy.sign
  rw [Int.cast_ne_zero]
  intro h0
  exact hs (Int.sign_eq_zero_iff_zero.1 h0)

theorem fan_regular : ∀ c < fan.nCells, Regular fan perm c := fun c _ => strip_regular 0 (by decide)

/-- A loop whose first step has no defined result has none. -/
theorem forN_ub {σ : Type} (n : Nat) (step : Nat → σ → Res σ) (s : σ) (hn : 0 < n)
    (h : step 0 s = .ub) : forN n (fun i (r : Res σ) => r.bind (step i)) (.ok s) = .ub := by
  induction n with
  | zero => omega
  | succ n ih =>
    rw [forN]
    by_cases h0 : n = 0
    · subst h0
      rw [forN, Res.bind, h]
    · rw [ih (by omega)]
      rfl

/-- C119 is violated on meshes with vertices of many faces: thirteen regular quadrilaterals with unit
permeability around a vertex.  The velocities are computed in arrays that are too short, in every
build. -/
theorem C119_violated : ∃ (w : Wy) (K : Nat → Nat → ℝ) (cor : Nat → Nat → Nat),
    (∀ v, w.vStart ≤ v → v < w.vEnd → Star w v (cor v)) ∧ (∀ c < w.nCells, Regular w K c) ∧
    (∀ v, w.vStart ≤ v → v < w.vEnd → ∀ f ∈ w.faces v, Covered w v (cor v) f) ∧ w.debug = true ∧
    ∀ Al u vel, wyRecoverVelocity w Al u vel = .ub := by
  refine ⟨fan, perm, fanCor, fan_star, fan_regular, fan_cov, rfl, fun Al u vel => ?_⟩
  unfold wyRecoverVelocity
  refine forN_ub _ (fun k => velocityVertex fan Al u (fan.vStart + k)) vel (by decide) ?_
  unfold velocityVertex vertexVelocity
  rw [if_pos (by decide)]

/-- The assembly reports such a vertex in debug builds only. -/
theorem C119_violated_assembly (l : Local) (s : Sys) :
    (∃ e, wyComputeSystem fan perm l s = .err e)
    ∧ wyComputeSystem { fan with debug := false } perm l s = .ub := by
  refine ⟨?_, ?_⟩
  · obtain ⟨l', hl⟩ := local_total fan_regular l
    unfold wyComputeSystem
    rw [hl]
    dsimp only
    have hstep : ∀ k (r : Res Sys), (∃ e, r = .err e) → ∃ e, r.bind (systemVertex fan l'.A (fan.vStart + k))
        = .err e := by
      rintro k r ⟨e, rfl⟩
      exact ⟨e, rfl⟩
    have h0 : ∃ e, systemVertex fan l'.A 13 s = .err e := by
      unfold systemVertex vertexSystem
      rw [if_pos (by decide)]
      exact ⟨s, rfl⟩
    have hall : ∃ e, forN 27 (fun k (r : Res Sys) => r.bind (systemVertex fan l'.A (fan.vStart + k)))
        (.ok s) = .err e := by
      have : ∀ n, ∃ e, forN (n + 1) (fun k (r : Res Sys) => r.bind (systemVertex fan l'.A (fan.vStart + k)))
          (.ok s) = .err e := by
        intro n
        induction n with
        | zero => exact h0
        | succ n ih => exact hstep _ _ ih
      exact this 26
    obtain ⟨e, he⟩ := hall
    rw [show fan.vEnd - fan.vStart = 27 from rfl, he]
    exact ⟨_, rfl⟩
  · obtain ⟨l', hl⟩ := local_total (w := { fan with debug := false }) (K := perm)
      (fun c _ => strip_regular 0 (by decide)) l
    unfold wyComputeSystem
    rw [hl]
    dsimp only
    rw [forN_ub _ (fun k => systemVertex { fan with debug := false } l'.A (fan.vStart + k)) s (by decide)]
    unfold systemVertex vertexSystem
    rw [if_pos (by decide)]
    rfl

end

end TDy.Fe.Props.WyWitness
