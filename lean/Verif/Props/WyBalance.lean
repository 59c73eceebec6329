import Verif.Proofs.WyBalance
import Verif.Proofs.WyRegular

/-!
# C77, C119-C121: the residual of the WY method
-/

namespace TDy.Fe.Props

open TDy.Fe TDy.Fe.Spec TDy.Fe.Proofs Finset

noncomputable section

theorem divergence_outflow (w : Wy) (vel : Nat → Nat → ℝ) {c : Nat} (hn : (w.cone c).Nodup) :
    wyDivergence w vel c = cellOutflow w vel c := by
  rw [divergence_eq w vel hn]
  unfold cellOutflow
  refine sum_congr rfl fun f _ => ?_
  rw [div_eq_mul_inv (∑ j ∈ range w.nfv, vel f j), sum_mul, mul_sum]
  refine sum_congr rfl fun j _ => ?_
  ring

theorem local_source {w : Wy} {K : Nat → Nat → ℝ} {l : Local} {c : Nat} (h : LocalIs w K l c) :
    l.F c = cellSource w c := h.2

/-- C119 (partial: vertices with at most twelve faces and cells).  With positive definite
permeabilities, regular cells and faces that belong to cells, neither the assembly nor the recovery of
velocities fails, whatever the pressures. -/
theorem C119_regular_partial (w : Wy) (K : Nat → Nat → ℝ) (cor : Nat → Nat → Nat)
    (hstar : ∀ v, w.vStart ≤ v → v < w.vEnd → Star w v (cor v))
    (hreg : ∀ c < w.nCells, Regular w K c)
    (hcov : ∀ v, w.vStart ≤ v → v < w.vEnd → ∀ f ∈ w.faces v, Covered w v (cor v) f)
    (hsize : ∀ v, w.vStart ≤ v → v < w.vEnd → (w.faces v).length ≤ 12 ∧ (w.cells v).length ≤ 12)
    (l : Local) (s : Sys) (u : Nat → ℝ) (vel : Nat → Nat → ℝ) :
    ∃ l' s', wyComputeSystem w K l s = .ok (l', s') ∧ ∃ vel', wyRecoverVelocity w l'.A u vel = .ok vel' := by
  obtain ⟨l', hl'⟩ := local_total hreg l
  have hL := local_ok hl'
  have h144 : ∀ a b, a ≤ 12 → b ≤ 12 → ¬ 144 < max a b*max a b := by
    intro a b ha hb
    have : max a b*max a b ≤ 12*12 := Nat.mul_le_mul (max_le ha hb) (max_le ha hb)
    omega
  obtain ⟨t, ht⟩ := forN_total (w.vEnd - w.vStart) (fun k => systemVertex w l'.A (w.vStart + k)) s
    (fun k hk s => systemVertex_total (hstar _ (by omega) (by omega)) hL hreg
      (hcov _ (by omega) (by omega)) (h144 _ _ (hsize _ (by omega) (by omega)).1
        (hsize _ (by omega) (by omega)).2) s)
  obtain ⟨vel', hv⟩ := forN_total (w.vEnd - w.vStart) (fun k => velocityVertex w l'.A u (w.vStart + k)) vel
    (fun k hk vel => velocityVertex_total (hstar _ (by omega) (by omega)) hL hreg
      (hcov _ (by omega) (by omega)) (by
        have := (hsize (w.vStart + k) (by omega) (by omega)).1
        have := Nat.mul_le_mul this this
        omega) u vel)
  refine ⟨l', systemForcing w l'.F t, ?_, vel', hv⟩
  unfold wyComputeSystem
  rw [hl']
  dsimp only
  rw [ht]

theorem maxAbs_nonneg (n : Nat) (C : Nat → Nat → ℝ) : 0 ≤ maxAbs n C := by
  unfold maxAbs
  refine forN_invariant n _ 0 (fun _ (m : ℝ) => 0 ≤ m) le_rfl ?_
  intro i m _ hm
  refine forN_invariant n _ m (fun _ (m : ℝ) => 0 ≤ m) hm ?_
  intro j m _ hm
  exact le_max_of_le_left hm

theorem kept_close {tol : ℝ} (ht : 0 ≤ tol) (n : Nat) (C : Nat → Nat → ℝ) (m q : Nat) :
    |C m q - kept tol n C m q| ≤ tol*maxAbs n C := by
  unfold kept
  split
  · rename_i h
    rw [sub_zero]
    exact h.le
  · rw [sub_self, abs_zero]
    exact mul_nonneg ht (maxAbs_nonneg n C)

theorem aMat_local {w : Wy} {v : Nat} {cor : Nat → Nat} (h : Star w v cor) {K : Nat → Nat → ℝ}
    {l l' : Local} (hl : ∀ c < w.nCells, LocalIs w K l c) (hl' : ∀ c < w.nCells, LocalIs w K l' c) :
    aMat w l.A v cor = aMat w l'.A v cor := by
  funext r k
  unfold aMat
  refine sum_congr rfl fun c hc => sum_congr rfl fun i hi => sum_congr rfl fun j hj => ?_
  have hc' := List.mem_toFinset.1 hc
  unfold aTerm
  rw [((hl c (cells_lt hc')).1 _ (h.cor_lt c hc')).2.2 i (mem_range.1 hi) j (mem_range.1 hj),
    ((hl' c (cells_lt hc')).1 _ (h.cor_lt c hc')).2.2 i (mem_range.1 hi) j (mem_range.1 hj)]

theorem threshold_eq {w : Wy} {v : Nat} {cor : Nat → Nat} (h : Star w v cor) {Al : Nat → Nat → Nat → ℝ}
    {s s' : Sys} (hok : systemVertex w Al v s = .ok s') :
    threshold w Al v = w.tol*maxAbs (w.cells v).length (cMat w Al v cor) := by
  have hd := (stencil_ok h hok).1
  unfold threshold
  by_cases hs : tooLarge w v
  · unfold systemVertex vertexSystem at hok
    rw [if_pos hs] at hok
    cases hdb : w.debug <;> simp [hdb] at hok
  · obtain ⟨t, ht, hA, hB, hG⟩ := system_closed h Al hs
    have hA' : t.A = aMat w Al v cor := by funext r k; exact hA r k
    have hB' : t.B = bMat w v cor := by funext r k; exact hB r k
    rw [ht]
    dsimp only
    unfold formStencil
    rw [hA', hB']
    dsimp only
    rw [if_neg hd]
    rfl

/-- What the entries left out of the matrix make of the residual. -/
theorem residual_lost (w : Wy) (K : Nat → Nat → ℝ) (cor : Nat → Nat → Nat)
    (pl : Nat → Nat → Nat) (l1 l1' l2 : Local) (s s' : Sys) (porosity dSdP u dpdt : Nat → ℝ)
    (vel : Nat → Nat → ℝ) (R R' : Nat → ℝ)
    (hstar : ∀ v, w.vStart ≤ v → v < w.vEnd → Star w v (cor v))
    (hpl : ∀ v, w.vStart ≤ v → v < w.vEnd → ∀ f ∈ w.faces v, Place w f v (pl f v))
    (hmap : ∀ c < w.nCells, 0 ≤ w.global c → CellMap w pl c)
    (hrow : ∀ c < w.nCells, ∀ c' < w.nCells, w.row c = w.row c' → c = c')
    (hzero : (∀ i j, s.K i j = 0) ∧ ∀ i, s.F i = 0)
    (hsys : wyComputeSystem w K l1 s = .ok (l1', s'))
    (hres : wyResidual w K porosity dSdP u dpdt l2 vel R = .ok R') :
    ∀ c < w.nCells, 0 ≤ w.global c →
      R' c - (porosity c*dSdP c*dpdt c
        + ((∑ c' ∈ range w.nCells, s'.K (w.row c) (w.row c')*u c') - s'.F (w.row c)))
      = ∑ q ∈ range w.nq, ∑ m ∈ range (w.cells (w.vmap c q)).length,
        (cMat w l1'.A (w.vmap c q) (cor (w.vmap c q)) (Ci w (w.vmap c q) c) m
        - kept w.tol (w.cells (w.vmap c q)).length (cMat w l1'.A (w.vmap c q) (cor (w.vmap c q)))
          (Ci w (w.vmap c q) c) m)*u ((w.cells (w.vmap c q)).getD m 0) := by
  intro c hc ho
  obtain ⟨hl1, t, ht, rfl⟩ := system_parts hsys
  obtain ⟨l2', vel', hl2, hvel, hR⟩ := residual_parts hres
  have hL1 := local_ok hl1
  have hL2 := local_ok hl2
  have hm := hmap c hc ho
  have hcor : ∀ q < w.nq, cor (w.vmap c q) c = q := by
    intro q hq
    obtain ⟨h1, h2, h3⟩ := hm.vertex q hq
    exact ((hstar _ h1 h2).cor_only c h3 q hq rfl).symm
  obtain ⟨hdet, hrows⟩ := system_row (cor := cor) u hstar hrow ht hc ho
  have hF : (systemForcing w l1'.F t).F (w.row c) = t.F (w.row c) + cellSource w c := by
    rw [forcing_F, sum_eq_single c]
    · rw [if_pos ho, if_pos rfl, local_source (hL1 c hc)]
    · intro c' hc' hne
      split
      · rw [if_neg]
        intro hr
        exact hne (hrow c hc c' (mem_range.1 hc') hr).symm
      · rfl
    · intro hn
      exact absurd (mem_range.2 hc) hn
  rw [forcing_K, hF]
  have hRc : R' c = porosity c*dSdP c*dpdt c + wyDivergence w vel' c - cellSource w c := by
    rw [hR c, if_pos ⟨hc, ho⟩, local_source (hL2 c hc)]
  -- the divergence is the exact stencil times the pressures
  have hdiv : wyDivergence w vel' c = ∑ q ∈ range w.nq, ((∑ m ∈ range (w.cells (w.vmap c q)).length,
      cMat w l1'.A (w.vmap c q) (cor (w.vmap c q)) (Ci w (w.vmap c q) c) m
        *u ((w.cells (w.vmap c q)).getD m 0))
      - dVec w l1'.A (w.vmap c q) (cor (w.vmap c q)) (Ci w (w.vmap c q) c)) := by
    rw [divergence_corners hstar hpl hm]
    refine sum_congr rfl fun q hq => ?_
    have hq' := mem_range.1 hq
    obtain ⟨h1, h2, h3⟩ := hm.vertex q hq'
    obtain ⟨y, hy, hs, _⟩ := recover_ok hstar hpl hvel _ h1 h2
    rw [aMat_local (hstar _ h1 h2) hL2 hL1] at hs
    unfold cMat dVec
    rw [balance_vertex (hstar _ h1 h2) (hdet _ h1 h2) hs h3]
    refine sum_congr rfl fun d hd => ?_
    unfold bTerm
    rw [hcor q hq', ← hy]
    have := (hstar _ h1 h2).face_mem c h3 d (mem_range.1 hd)
    rwa [hcor q hq'] at this
  rw [sum_corners hstar hm (fun v => (∑ m ∈ range (w.cells v).length,
      kept w.tol (w.cells v).length (cMat w l1'.A v (cor v)) (Ci w v c) m*u ((w.cells v).getD m 0))
      - dVec w l1'.A v (cor v) (Ci w v c))] at hrows
  have hs0 : ((∑ c' ∈ range w.nCells, s.K (w.row c) (w.row c')*u c') - s.F (w.row c)) = 0 := by
    rw [sum_eq_zero (fun c' _ => by rw [hzero.1, zero_mul]), hzero.2, sub_zero]
  rw [hs0, zero_add] at hrows
  rw [hRc, hdiv]
  have : (∑ c' ∈ range w.nCells, t.K (w.row c) (w.row c')*u c') - (t.F (w.row c) + cellSource w c)
      = ((∑ c' ∈ range w.nCells, t.K (w.row c) (w.row c')*u c') - t.F (w.row c)) - cellSource w c := by ring
  rw [this, hrows]
  have e : ∀ a b d e : ℝ, a + b - d - (a + (e - d)) = b - e := by intros; ring
  rw [e, ← sum_sub_distrib]
  refine sum_congr rfl fun q _ => ?_
  have e2 : ∀ a b d : ℝ, a - d - (b - d) = a - b := by intros; ring
  rw [e2, ← sum_sub_distrib]
  refine sum_congr rfl fun m _ => ?_
  ring

theorem residual_rows (w : Wy) (K : Nat → Nat → ℝ) (cor : Nat → Nat → Nat)
    (pl : Nat → Nat → Nat) (l1 l1' l2 : Local) (s s' : Sys) (porosity dSdP u dpdt : Nat → ℝ)
    (vel : Nat → Nat → ℝ) (R R' : Nat → ℝ) (htol : 0 ≤ w.tol)
    (hstar : ∀ v, w.vStart ≤ v → v < w.vEnd → Star w v (cor v))
    (hpl : ∀ v, w.vStart ≤ v → v < w.vEnd → ∀ f ∈ w.faces v, Place w f v (pl f v))
    (hmap : ∀ c < w.nCells, 0 ≤ w.global c → CellMap w pl c)
    (hrow : ∀ c < w.nCells, ∀ c' < w.nCells, w.row c = w.row c' → c = c')
    (hzero : (∀ i j, s.K i j = 0) ∧ ∀ i, s.F i = 0)
    (hsys : wyComputeSystem w K l1 s = .ok (l1', s'))
    (hres : wyResidual w K porosity dSdP u dpdt l2 vel R = .ok R') :
    ∀ c < w.nCells, 0 ≤ w.global c →
      |R' c - (porosity c*dSdP c*dpdt c
        + ((∑ c' ∈ range w.nCells, s'.K (w.row c) (w.row c')*u c') - s'.F (w.row c)))|
      ≤ ∑ q ∈ range w.nq, threshold w l1'.A (w.vmap c q)*∑ c' ∈ (w.cells (w.vmap c q)).toFinset, |u c'| := by
  intro c hc ho
  rw [residual_lost w K cor pl l1 l1' l2 s s' porosity dSdP u dpdt vel R R' hstar hpl hmap hrow hzero hsys
    hres c hc ho]
  obtain ⟨_, t, ht, rfl⟩ := system_parts hsys
  have hm := hmap c hc ho
  have hthr : ∀ q < w.nq, threshold w l1'.A (w.vmap c q)
      = w.tol*maxAbs (w.cells (w.vmap c q)).length (cMat w l1'.A (w.vmap c q) (cor (w.vmap c q))) := by
    intro q hq
    obtain ⟨h1, h2, h3⟩ := hm.vertex q hq
    have key := forN_res (w.vEnd - w.vStart) (fun k => systemVertex w l1'.A (w.vStart + k))
      (fun m (_ : Sys) => ∀ k < m, threshold w l1'.A (w.vStart + k)
        = w.tol*maxAbs (w.cells (w.vStart + k)).length (cMat w l1'.A (w.vStart + k) (cor (w.vStart + k))))
      s t (by simp) (by
        intro m hm s s' hs hstep k hk
        by_cases hkm : k = m
        · subst hkm
          exact threshold_eq (hstar _ (by omega) (by omega)) hstep
        · exact hs k (by omega)) ht (w.vmap c q - w.vStart) (by omega)
    rwa [Nat.add_sub_cancel' h1] at key
  refine (abs_sum_le_sum_abs _ _).trans (sum_le_sum fun q hq => ?_)
  refine (abs_sum_le_sum_abs _ _).trans ?_
  obtain ⟨h1, h2, h3⟩ := hm.vertex q (mem_range.1 hq)
  rw [hthr q (mem_range.1 hq), ← sum_cells_places (hstar _ h1 h2).cells_nodup (fun c' => |u c'|), mul_sum]
  refine sum_le_sum fun m _ => ?_
  rw [abs_mul]
  exact mul_le_mul_of_nonneg_right (kept_close htol _ _ _ _) (abs_nonneg _)

/-- C120.  The residual of a process is, up to the entries the assembly leaves out, the accumulation plus
the assembled system: for every cell of the process, `K u - F` is its outflow less its source. -/
theorem C120_residual_is_system (w : Wy) (K : Nat → Nat → ℝ) (cor : Nat → Nat → Nat)
    (pl : Nat → Nat → Nat) (num : Nat → Nat) (hnum : GlobalNumbers w num)
    (l1 l1' l2 : Local) (s s' : Sys) (porosity dSdP u dpdt : Nat → ℝ)
    (vel : Nat → Nat → ℝ) (R R' : Nat → ℝ) (htol : 0 ≤ w.tol)
    (hstar : ∀ v, w.vStart ≤ v → v < w.vEnd → Star w v (cor v))
    (hpl : ∀ v, w.vStart ≤ v → v < w.vEnd → ∀ f ∈ w.faces v, Place w f v (pl f v))
    (hmap : ∀ c < w.nCells, 0 ≤ w.global c → CellMap w pl c)
    (hzero : (∀ i j, s.K i j = 0) ∧ ∀ i, s.F i = 0)
    (hsys : wyComputeSystem w K l1 s = .ok (l1', s'))
    (hres : wyResidual w K porosity dSdP u dpdt l2 vel R = .ok R') :
    ∀ c < w.nCells, 0 ≤ w.global c →
      |R' c - (porosity c*dSdP c*dpdt c
        + ((∑ c' ∈ range w.nCells, s'.K (num c) (num c')*u c') - s'.F (num c)))|
      ≤ ∑ q ∈ range w.nq, threshold w l1'.A (w.vmap c q)*∑ c' ∈ (w.cells (w.vmap c q)).toFinset, |u c'| := by
  intro c hc ho
  have := residual_rows w K cor pl l1 l1' l2 s s' porosity dSdP u dpdt vel R R' htol hstar hpl hmap
    (row_inj hnum) hzero hsys hres c hc ho
  rw [row_num hnum hc, sum_congr rfl (fun c' hc' => by
    rw [row_num hnum (mem_range.1 hc')] : ∀ c' ∈ range w.nCells,
      s'.K (num c) (w.row c')*u c' = s'.K (num c) (num c')*u c')] at this
  exact this

/-- C121.  Summed over a mesh in one process, the residual is the accumulation plus the flow through the
boundary less the sources: what leaves one cell through an internal face enters the other. -/
theorem C121_mass_balance (w : Wy) (K : Nat → Nat → ℝ) (l : Local) (porosity dSdP u dpdt : Nat → ℝ)
    (vel : Nat → Nat → ℝ) (R R' : Nat → ℝ) (bnd : Finset Nat)
    (hown : ∀ c < w.nCells, 0 ≤ w.global c) (hcone : ∀ c < w.nCells, (w.cone c).Nodup)
    (hint : ∀ f ∉ bnd, ∑ c ∈ range w.nCells, (if f ∈ w.cone c then w.outSign c f else 0) = 0)
    (hres : wyResidual w K porosity dSdP u dpdt l vel R = .ok R') :
    ∃ l' vel', localElementCompute w K l = .ok l' ∧ wyRecoverVelocity w l'.A u vel = .ok vel' ∧
      ∑ c ∈ range w.nCells, R' c = (∑ c ∈ range w.nCells, porosity c*dSdP c*dpdt c)
        + (∑ f ∈ bnd, ∑ c ∈ range w.nCells, if f ∈ w.cone c then
          w.outSign c f*w.V f*((∑ j ∈ range w.nfv, vel' f j)/w.nfv) else 0)
        - ∑ c ∈ range w.nCells, cellSource w c := by
  obtain ⟨l', vel', hl, hv, hR⟩ := residual_parts hres
  refine ⟨l', vel', hl, hv, ?_⟩
  have hL := local_ok hl
  have h1 : ∀ c ∈ range w.nCells, R' c = porosity c*dSdP c*dpdt c + cellOutflow w vel' c - cellSource w c := by
    intro c hc
    have hc' := mem_range.1 hc
    rw [hR c, if_pos ⟨hc', hown c hc'⟩, local_source (hL c hc'), divergence_outflow w vel' (hcone c hc')]
  rw [sum_congr rfl h1, sum_sub_distrib, sum_add_distrib]
  congr 2
  set all : Finset Nat := bnd ∪ (range w.nCells).biUnion (fun c => (w.cone c).toFinset) with hall
  have h2 : ∀ c ∈ range w.nCells, cellOutflow w vel' c = ∑ f ∈ all, if f ∈ w.cone c then
      w.outSign c f*w.V f*((∑ j ∈ range w.nfv, vel' f j)/w.nfv) else 0 := by
    intro c hc
    unfold cellOutflow
    rw [← sum_filter]
    refine sum_congr ?_ fun _ _ => rfl
    ext f
    rw [mem_filter, List.mem_toFinset, hall, mem_union, mem_biUnion]
    exact ⟨fun h => ⟨.inr ⟨c, hc, List.mem_toFinset.2 h⟩, h⟩, fun h => h.2⟩
  rw [sum_congr rfl h2, sum_comm, ← sum_subset (subset_union_left : bnd ⊆ all)]
  intro f _ hf
  have := hint f hf
  have h3 : ∀ c ∈ range w.nCells, (if f ∈ w.cone c then
      w.outSign c f*w.V f*((∑ j ∈ range w.nfv, vel' f j)/w.nfv) else 0)
      = (if f ∈ w.cone c then w.outSign c f else 0)*(w.V f*((∑ j ∈ range w.nfv, vel' f j)/w.nfv)) := by
    intro c _
    split <;> ring
  rw [sum_congr rfl h3, ← sum_mul, this, zero_mul]

/-- C77 (partial: cells of volume one, or no change of pressure).  The residual of a cell is the rate of
change of the water in the cell, plus its outflow, less its source.  Missing: other volumes; the rate is not
multiplied by the volume (`C77_violated`). -/
theorem C77_unit_volume_or_steady_partial (w : Wy) (K : Nat → Nat → ℝ) (l : Local)
    (porosity dSdP u dpdt : Nat → ℝ) (vel : Nat → Nat → ℝ) (R R' : Nat → ℝ)
    (hcone : ∀ c < w.nCells, (w.cone c).Nodup)
    (hres : wyResidual w K porosity dSdP u dpdt l vel R = .ok R') :
    ∃ l' vel', localElementCompute w K l = .ok l' ∧ wyRecoverVelocity w l'.A u vel = .ok vel' ∧
      ∀ c < w.nCells, 0 ≤ w.global c → (w.V c = 1 ∨ dpdt c = 0) →
        R' c = w.V c*(porosity c*dSdP c*dpdt c) + cellOutflow w vel' c - cellSource w c := by
  obtain ⟨l', vel', hl, hv, hR⟩ := residual_parts hres
  refine ⟨l', vel', hl, hv, fun c hc ho hV => ?_⟩
  have hL := local_ok hl
  rw [hR c, if_pos ⟨hc, ho⟩, local_source (hL c hc), divergence_outflow w vel' (hcone c hc)]
  rcases hV with h | h <;> rw [h] <;> ring

end

end TDy.Fe.Props
