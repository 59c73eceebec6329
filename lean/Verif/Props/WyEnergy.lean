import Verif.Props.WyBalance
import Verif.Spec.WyEnergy
import Mathlib.LinearAlgebra.Matrix.ToLinearEquiv
import Mathlib.LinearAlgebra.Matrix.NonsingularInverse

/-!
# C183: the WY system is positive definite
-/

namespace TDy.Fe.Props

open TDy.Fe TDy.Fe.Spec TDy.Fe.Proofs Finset

noncomputable section

/-- The energy of velocities is not negative, and zero only at rest. -/
theorem energy_definite {w : Wy} {v : Nat} {cor : Nat → Nat} (h : Star w v cor) {K : Nat → Nat → ℝ}
    {l : Local} (hl : ∀ c < w.nCells, LocalIs w K l c) (hreg : ∀ c < w.nCells, Regular w K c)
    (hcov : ∀ f ∈ w.faces v, Covered w v cor f) (x : Fin (w.faces v).length → ℝ) :
    0 ≤ ∑ r ∈ range (w.faces v).length, entry1 x r*∑ k ∈ range (w.faces v).length,
      aMat w l.A v cor r k*entry1 x k ∧
    ((∑ r ∈ range (w.faces v).length, entry1 x r*∑ k ∈ range (w.faces v).length,
      aMat w l.A v cor r k*entry1 x k) = 0 → x = 0) := by
  have hnn : ∀ c ∈ (w.cells v).toFinset, 0 ≤ ∑ i ∈ range w.dim, ∑ j ∈ range w.dim,
        (w.sign c (cor c) i*w.V (w.face c (cor c) i)*entry1 x (Fi w v (w.face c (cor c) i)))
        *cornerMass w K c (cor c) i j
        *(w.sign c (cor c) j*w.V (w.face c (cor c) j)*entry1 x (Fi w v (w.face c (cor c) j))) := by
    intro c hc
    have hc' := List.mem_toFinset.1 hc
    have hr := hreg c (cells_lt hc')
    exact corner_nonneg (hr.2 _ (h.cor_lt c hc')).1 (hr.2 _ (h.cor_lt c hc')).2 hr.1 (fun i =>
      w.sign c (cor c) i*w.V (w.face c (cor c) i)*entry1 x (Fi w v (w.face c (cor c) i)))
  rw [aMat_energy h hl (entry1 x)]
  refine ⟨sum_nonneg hnn, fun h0 => ?_⟩
  have hcell := (sum_eq_zero_iff_of_nonneg hnn).1 h0
  funext k
  have hf : (w.faces v)[k] ∈ w.faces v := List.getElem_mem k.2
  obtain ⟨c, hc, i, hi, hfi, hs, hV⟩ := hcov _ hf
  have hr := hreg c (cells_lt hc)
  by_contra hne
  have hpos := corner_pos (hr.2 _ (h.cor_lt c hc)).1 (hr.2 _ (h.cor_lt c hc)).2 hr.1 (fun i =>
      w.sign c (cor c) i*w.V (w.face c (cor c) i)*entry1 x (Fi w v (w.face c (cor c) i))) ⟨i, hi, by
    rw [hfi]
    have hk : Fi w v (w.faces v)[k] = k := h.faces_nodup.idxOf_getElem k k.2
    rw [hk, entry1_apply]
    exact mul_ne_zero (mul_ne_zero hs hV) hne⟩
  rw [hcell c (List.mem_toFinset.2 hc)] at hpos
  exact lt_irrefl _ hpos

/-- The pressures of the cells at a vertex. -/
def nearby (w : Wy) (v : Nat) (u : Nat → ℝ) : Fin (w.cells v).length → ℝ :=
  fun m => u ((w.cells v).getD m 0)

/-- The stencil of a vertex as a form. -/
def stencilForm (w : Wy) (Al : Nat → Nat → Nat → ℝ) (v : Nat) (cor : Nat → Nat) (u : Nat → ℝ) : ℝ :=
  ∑ m ∈ range (w.cells v).length, u ((w.cells v).getD m 0)*
    ∑ q ∈ range (w.cells v).length, cMat w Al v cor m q*u ((w.cells v).getD q 0)

theorem stencil_definite {w : Wy} {v : Nat} {cor : Nat → Nat} (h : Star w v cor) {K : Nat → Nat → ℝ}
    {l : Local} (hl : ∀ c < w.nCells, LocalIs w K l c) (hreg : ∀ c < w.nCells, Regular w K c)
    (hcov : ∀ f ∈ w.faces v, Covered w v cor f) (u : Nat → ℝ) :
    0 ≤ stencilForm w l.A v cor u ∧ (stencilForm w l.A v cor u = 0 →
      ∀ f ∈ w.faces v, ∑ c ∈ (w.cells v).toFinset, ∑ i ∈ range w.dim,
        (if w.face c (cor c) i = f then bTerm w cor c i*u c else 0) = 0) := by
  have hdet := aMat_det h hl hreg hcov
  let A := mat (w.faces v).length (w.faces v).length (aMat w l.A v cor)
  let B := mat (w.faces v).length (w.cells v).length (bMat w v cor)
  let x : Fin (w.faces v).length → ℝ := A⁻¹.mulVec (B.mulVec (nearby w v u))
  have hAx : A.mulVec x = B.mulVec (nearby w v u) := by
    show A.mulVec (A⁻¹.mulVec _) = _
    rw [Matrix.mulVec_mulVec, Matrix.mul_nonsing_inv _ (isUnit_iff_ne_zero.2 hdet), Matrix.one_mulVec]
  have hform : stencilForm w l.A v cor u =
      ∑ r ∈ range (w.faces v).length, entry1 x r*∑ k ∈ range (w.faces v).length,
        aMat w l.A v cor r k*entry1 x k := by
    have e1 : stencilForm w l.A v cor u =
        dotProduct (nearby w v u) ((B.transpose*A⁻¹*B).mulVec (nearby w v u)) := by
      unfold stencilForm
      rw [← Fin.sum_univ_eq_sum_range (fun m => u ((w.cells v).getD m 0)*
        ∑ q ∈ range (w.cells v).length, cMat w l.A v cor m q*u ((w.cells v).getD q 0))]
      refine sum_congr rfl fun m _ => ?_
      rw [← Fin.sum_univ_eq_sum_range (fun q => cMat w l.A v cor m q*u ((w.cells v).getD q 0))]
      refine congrArg _ (sum_congr rfl fun q _ => ?_)
      unfold cMat entry
      rw [dif_pos ⟨m.2, q.2⟩]
      rfl
    have e2 : (∑ r ∈ range (w.faces v).length, entry1 x r*∑ k ∈ range (w.faces v).length,
        aMat w l.A v cor r k*entry1 x k) = dotProduct x (A.mulVec x) := by
      rw [← Fin.sum_univ_eq_sum_range (fun r => entry1 x r*∑ k ∈ range (w.faces v).length,
        aMat w l.A v cor r k*entry1 x k)]
      refine sum_congr rfl fun r _ => ?_
      rw [← Fin.sum_univ_eq_sum_range (fun k => aMat w l.A v cor r k*entry1 x k), entry1_apply]
      refine congrArg _ (sum_congr rfl fun k _ => ?_)
      rw [entry1_apply]
      rfl
    rw [e1, e2, hAx, Matrix.mul_assoc, ← Matrix.mulVec_mulVec, ← Matrix.mulVec_mulVec,
      Matrix.dotProduct_mulVec, Matrix.vecMul_transpose, dotProduct_comm]
  obtain ⟨h1, h2⟩ := energy_definite h hl hreg hcov x
  rw [hform]
  refine ⟨h1, fun h0 f hf => ?_⟩
  have hx := h2 h0
  rw [hx, Matrix.mulVec_zero] at hAx
  have hr := congrFun hAx ⟨Fi w v f, Fi_lt hf⟩
  have e : B.mulVec (nearby w v u) ⟨Fi w v f, Fi_lt hf⟩ =
      ∑ k ∈ range (w.cells v).length, bMat w v cor (Fi w v f) k*u ((w.cells v).getD k 0) := by
    rw [← Fin.sum_univ_eq_sum_range (fun k => bMat w v cor (Fi w v f) k*u ((w.cells v).getD k 0))]
    rfl
  rw [e, bMat_mul h] at hr
  rw [Pi.zero_apply] at hr
  refine Eq.trans ?_ hr.symm
  refine sum_congr rfl fun c hc => sum_congr rfl fun i hi => ?_
  refine if_congr ?_ rfl rfl
  rw [Fi_eq hf]
  exact eq_comm

/-- What no flow means for two cells with a face between them. -/
theorem between_equal {w : Wy} {v : Nat} {cor : Nat → Nat} (h : Star w v cor) {f c c' : Nat}
    (hb : Between w v cor f c c') (u : Nat → ℝ)
    (h0 : ∑ d ∈ (w.cells v).toFinset, ∑ i ∈ range w.dim,
        (if w.face d (cor d) i = f then bTerm w cor d i*u d else 0) = 0) : u c = u c' := by
  obtain ⟨hc, i, hi, hfi, hsi⟩ := hb.left
  obtain ⟨hc', j, hj, hfj, hsj⟩ := hb.right
  have one : ∀ d ∈ w.cells v, ∀ k < w.dim, w.face d (cor d) k = f →
      (∑ i ∈ range w.dim, if w.face d (cor d) i = f then bTerm w cor d i*u d else 0)
        = bTerm w cor d k*u d := by
    intro d hd k hk hf
    rw [sum_eq_single_of_mem k (mem_range.2 hk), if_pos hf]
    intro b hb' hne
    rw [if_neg]
    intro hfb
    exact hne (h.face_inj d hd b (mem_range.1 hb') k hk (hfb.trans hf.symm))
  rw [← sum_subset (s₁ := {c, c'}) (by
      intro d hd
      rw [mem_insert, mem_singleton] at hd
      rcases hd with rfl | rfl
      · exact List.mem_toFinset.2 hc
      · exact List.mem_toFinset.2 hc') (by
      intro d hd hn
      refine sum_eq_zero fun k hk => if_neg fun hf => hn ?_
      rw [mem_insert, mem_singleton]
      exact hb.only d (List.mem_toFinset.1 hd) k (mem_range.1 hk) hf),
    sum_pair hb.ne, one c hc i hi hfi, one c' hc' j hj hfj] at h0
  unfold bTerm at h0
  rw [hfi, hfj, hsi, hsj] at h0
  have hw : wgt w ≠ 0 := by unfold wgt; positivity
  have : wgt w*w.V f*(u c - u c') = 0 := by linarith
  rcases mul_eq_zero.1 this with h | h
  · exact absurd h (mul_ne_zero hw hb.area)
  · linarith

/-- What no flow means for a cell at the boundary. -/
theorem outside_zero {w : Wy} {v : Nat} {cor : Nat → Nat} (h : Star w v cor) {f c : Nat}
    (hb : Outside w v cor f c) (u : Nat → ℝ)
    (h0 : ∑ d ∈ (w.cells v).toFinset, ∑ i ∈ range w.dim,
        (if w.face d (cor d) i = f then bTerm w cor d i*u d else 0) = 0) : u c = 0 := by
  obtain ⟨hc, i, hi, hfi, hsi⟩ := hb.left
  rw [sum_eq_single_of_mem c (List.mem_toFinset.2 hc) (by
      intro d hd hn
      exact sum_eq_zero fun k hk => if_neg fun hf => hn
        (hb.only d (List.mem_toFinset.1 hd) k (mem_range.1 hk) hf)),
    sum_eq_single_of_mem i (mem_range.2 hi) (by
      intro b hb' hne
      rw [if_neg]
      intro hfb
      exact hne (h.face_inj c hc b (mem_range.1 hb') i hi (hfb.trans hfi.symm))), if_pos hfi] at h0
  unfold bTerm at h0
  rw [hfi] at h0
  have hw : wgt w ≠ 0 := by unfold wgt; positivity
  rcases mul_eq_zero.1 h0 with h | h
  · exact absurd h (mul_ne_zero (mul_ne_zero hw hsi) hb.area)
  · exact h

theorem kept_all {w : Wy} {v : Nat} {cor : Nat → Nat} (h : Star w v cor) {Al : Nat → Nat → Nat → ℝ}
    {s s' : Sys} (hok : systemVertex w Al v s = .ok s') (hn : NothingLost w Al v) (m q : Nat) :
    kept w.tol (w.cells v).length (cMat w Al v cor) m q = cMat w Al v cor m q := by
  have hth := threshold_eq h hok
  have hd := (stencil_ok h hok).1
  unfold NothingLost at hn
  by_cases hs : tooLarge w v
  · unfold systemVertex vertexSystem at hok
    rw [if_pos hs] at hok
    cases hdb : w.debug <;> simp [hdb] at hok
  · obtain ⟨t, ht, hA, hB, hG⟩ := system_closed h Al hs
    have hA' : t.A = aMat w Al v cor := by funext r k; exact hA r k
    have hB' : t.B = bMat w v cor := by funext r k; exact hB r k
    rw [ht, hth] at hn
    dsimp only at hn
    unfold formStencil at hn
    rw [hA', hB'] at hn
    dsimp only at hn
    rw [if_neg hd] at hn
    unfold kept
    by_cases hlt : |cMat w Al v cor m q| < w.tol*maxAbs (w.cells v).length (cMat w Al v cor)
    · rw [if_pos hlt]
      exact (hn m q hlt).symm
    · rw [if_neg hlt]

/-- Nothing is lost if no entry that is not zero is below the threshold. -/
theorem nothing_lost {w : Wy} {v : Nat} {cor : Nat → Nat} (h : Star w v cor) {Al : Nat → Nat → Nat → ℝ}
    {s s' : Sys} (hok : systemVertex w Al v s = .ok s')
    (hn : ∀ m < (w.cells v).length, ∀ q < (w.cells v).length,
      |cMat w Al v cor m q| < w.tol*maxAbs (w.cells v).length (cMat w Al v cor) →
      cMat w Al v cor m q = 0) : NothingLost w Al v := by
  have hth := threshold_eq h hok
  have hd := (stencil_ok h hok).1
  unfold NothingLost
  by_cases hs : tooLarge w v
  · unfold systemVertex vertexSystem at hok
    rw [if_pos hs] at hok
    cases hdb : w.debug <;> simp [hdb] at hok
  · obtain ⟨t, ht, hA, hB, hG⟩ := system_closed h Al hs
    have hA' : t.A = aMat w Al v cor := by funext r k; exact hA r k
    have hB' : t.B = bMat w v cor := by funext r k; exact hB r k
    rw [ht, hth]
    dsimp only
    unfold formStencil
    rw [hA', hB']
    dsimp only
    rw [if_neg hd]
    dsimp only
    intro m q hlt
    by_cases hmq : m < (w.cells v).length ∧ q < (w.cells v).length
    · exact hn m hmq.1 q hmq.2 hlt
    · unfold entry
      rw [dif_neg hmq]

/-- The vertices all succeeded. -/
theorem vertices_ok {w : Wy} {Al : Nat → Nat → Nat → ℝ} {s t : Sys}
    (ht : forN (w.vEnd - w.vStart) (fun k (r : Res Sys) => r.bind (systemVertex w Al (w.vStart + k)))
        (.ok s) = .ok t) : ∀ k < w.vEnd - w.vStart, ∃ a b, systemVertex w Al (w.vStart + k) a = .ok b := by
  refine (forN_res _ (fun k => systemVertex w Al (w.vStart + k)) (fun m (_ : Sys) =>
    ∀ k < m, ∃ a b, systemVertex w Al (w.vStart + k) a = .ok b) s t (by simp) ?_ ht)
  intro m hm a b hi hs k hk
  by_cases hkm : k = m
  · exact ⟨a, b, hkm ▸ hs⟩
  · exact hi k (by omega)

/-- A row of the matrix: the kept entries of the stencils of its vertices. -/
theorem row_kept {w : Wy} {K : Nat → Nat → ℝ} {l l' : Local} {s s' : Sys} {cor : Nat → Nat → Nat}
    {num : Nat → Nat} (hnum : GlobalNumbers w num)
    (hstar : ∀ v, w.vStart ≤ v → v < w.vEnd → Star w v (cor v))
    (hs : ∀ i j, s.K i j = 0) (hok : wyComputeSystem w K l s = .ok (l', s')) (u : Nat → ℝ) {c : Nat}
    (hc : c < w.nCells) (ho : 0 ≤ w.global c) :
    ∑ c' ∈ range w.nCells, s'.K (num c) (num c')*u c' =
      ∑ k ∈ range (w.vEnd - w.vStart), if c ∈ w.cells (w.vStart + k) then
        ∑ q ∈ range (w.cells (w.vStart + k)).length,
          kept w.tol (w.cells (w.vStart + k)).length (cMat w l'.A (w.vStart + k) (cor (w.vStart + k)))
            (Ci w (w.vStart + k) c) q*u ((w.cells (w.vStart + k)).getD q 0) else 0 := by
  obtain ⟨_, t, ht, rfl⟩ := system_parts hok
  have h1 := (system_row (cor := cor) u hstar (row_inj hnum) ht hc ho).2
  have h2 := (system_row (cor := cor) (fun _ => 0) hstar (row_inj hnum) ht hc ho).2
  have e : ∑ c' ∈ range w.nCells, (systemForcing w l'.F t).K (num c) (num c')*u c' =
      ∑ c' ∈ range w.nCells, t.K (w.row c) (w.row c')*u c' := by
    rw [forcing_K]
    refine sum_congr rfl fun c' h' => ?_
    rw [row_num hnum hc, row_num hnum (mem_range.1 h')]
  simp only [mul_zero, sum_const_zero, hs, zero_mul, zero_sub] at h1 h2
  have h3 : ∑ c' ∈ range w.nCells, t.K (w.row c) (w.row c')*u c' =
      (∑ c' ∈ range w.nCells, t.K (w.row c) (w.row c')*u c' - t.F (w.row c)) - (-t.F (w.row c)) := by
    ring
  rw [e, h3, h1, h2, add_sub_add_left_eq_sub, ← sum_sub_distrib]
  refine sum_congr rfl fun k hk => ?_
  by_cases hm : c ∈ w.cells (w.vStart + k)
  · rw [if_pos hm, if_pos hm, if_pos hm, sub_neg_eq_add, sub_add_cancel]
  · rw [if_neg hm, if_neg hm, if_neg hm, sub_zero]

/-- The form of the matrix is the sum of the forms of the stencils. -/
theorem form_sum {w : Wy} {K : Nat → Nat → ℝ} {l l' : Local} {s s' : Sys} {cor : Nat → Nat → Nat}
    {num : Nat → Nat} (hnum : GlobalNumbers w num) (hown : ∀ c < w.nCells, 0 ≤ w.global c)
    (hstar : ∀ v, w.vStart ≤ v → v < w.vEnd → Star w v (cor v))
    (hlost : ∀ v, w.vStart ≤ v → v < w.vEnd → NothingLost w l'.A v)
    (hs : ∀ i j, s.K i j = 0) (hok : wyComputeSystem w K l s = .ok (l', s')) (u : Nat → ℝ) :
    ∑ c ∈ range w.nCells, u c*∑ c' ∈ range w.nCells, s'.K (num c) (num c')*u c'
      = ∑ k ∈ range (w.vEnd - w.vStart), stencilForm w l'.A (w.vStart + k) (cor (w.vStart + k)) u := by
  have hrow : ∀ c ∈ range w.nCells, ∑ c' ∈ range w.nCells, s'.K (num c) (num c')*u c' =
      ∑ k ∈ range (w.vEnd - w.vStart), if c ∈ w.cells (w.vStart + k) then
        ∑ q ∈ range (w.cells (w.vStart + k)).length,
          cMat w l'.A (w.vStart + k) (cor (w.vStart + k)) (Ci w (w.vStart + k) c) q
            *u ((w.cells (w.vStart + k)).getD q 0) else 0 := by
    intro c hc
    rw [row_kept hnum hstar hs hok u (mem_range.1 hc) (hown c (mem_range.1 hc))]
    obtain ⟨_, t, ht, _⟩ := system_parts hok
    refine sum_congr rfl fun k hk => ?_
    have hk' := mem_range.1 hk
    obtain ⟨a, b, hab⟩ := vertices_ok ht k hk'
    refine if_congr Iff.rfl (sum_congr rfl fun q _ => ?_) rfl
    rw [kept_all (hstar _ (by omega) (by omega)) hab (hlost _ (by omega) (by omega))]
  rw [sum_congr rfl fun c hc => congrArg (u c*·) (hrow c hc)]
  simp only [mul_sum]
  rw [sum_comm]
  refine sum_congr rfl fun k hk => ?_
  have hk' := mem_range.1 hk
  have hst := hstar (w.vStart + k) (by omega) (by omega)
  have hp := sum_cells_places (w := w) (v := w.vStart + k) hst.cells_nodup (fun c => u c*
    ∑ q ∈ range (w.cells (w.vStart + k)).length,
      cMat w l'.A (w.vStart + k) (cor (w.vStart + k)) (Ci w (w.vStart + k) c) q
        *u ((w.cells (w.vStart + k)).getD q 0))
  have hl : ∀ q ∈ range (w.cells (w.vStart + k)).length,
      Ci w (w.vStart + k) ((w.cells (w.vStart + k)).getD q 0) = q := by
    intro q hq
    have hq' := mem_range.1 hq
    rw [getD_lt _ hq']
    exact hst.cells_nodup.idxOf_getElem q hq'
  have hR : stencilForm w l'.A (w.vStart + k) (cor (w.vStart + k)) u =
      ∑ c ∈ (w.cells (w.vStart + k)).toFinset, u c*
        ∑ q ∈ range (w.cells (w.vStart + k)).length,
          cMat w l'.A (w.vStart + k) (cor (w.vStart + k)) (Ci w (w.vStart + k) c) q
            *u ((w.cells (w.vStart + k)).getD q 0) := by
    rw [← hp]
    unfold stencilForm
    refine sum_congr rfl fun m hm => ?_
    rw [hl m hm]
  rw [hR]
  rw [← sum_subset (s₁ := (w.cells (w.vStart + k)).toFinset) (s₂ := range w.nCells) (by
      intro d hd
      exact mem_range.2 (cells_lt (List.mem_toFinset.1 hd))) (by
      intro d _ hn
      rw [if_neg fun h => hn (List.mem_toFinset.2 h), mul_zero])]
  refine sum_congr rfl fun c hc => ?_
  rw [if_pos (List.mem_toFinset.1 hc)]

theorem linked_equal {w : Wy} {K : Nat → Nat → ℝ} {l : Local} {cor : Nat → Nat → Nat}
    (hstar : ∀ v, w.vStart ≤ v → v < w.vEnd → Star w v (cor v)) (hl : ∀ c < w.nCells, LocalIs w K l c)
    (hreg : ∀ c < w.nCells, Regular w K c)
    (hcov : ∀ v, w.vStart ≤ v → v < w.vEnd → ∀ f ∈ w.faces v, Covered w v (cor v) f) (u : Nat → ℝ)
    (h0 : ∀ v, w.vStart ≤ v → v < w.vEnd → stencilForm w l.A v (cor v) u = 0) :
    (∀ c c', Linked w cor c c' → u c = u c') ∧ ∀ c, AtBoundary w cor c → u c = 0 := by
  refine ⟨?_, ?_⟩
  · rintro c c' ⟨v, f, h1, h2, hf, hb⟩
    have hz := (stencil_definite (hstar v h1 h2) hl hreg (hcov v h1 h2) u).2 (h0 v h1 h2) f hf
    rcases hb with hb | hb
    · exact between_equal (hstar v h1 h2) hb u hz
    · exact (between_equal (hstar v h1 h2) hb u hz).symm
  · rintro c ⟨v, f, h1, h2, hf, hb⟩
    exact outside_zero (hstar v h1 h2) hb u
      ((stencil_definite (hstar v h1 h2) hl hreg (hcov v h1 h2) u).2 (h0 v h1 h2) f hf)

theorem path_equal {r : Nat → Nat → Prop} {u : Nat → ℝ} (h : ∀ c c', r c c' → u c = u c') {a b : Nat}
    (hp : Relation.ReflTransGen r a b) : u a = u b := by
  induction hp with
  | refl => rfl
  | tail _ hr ih => exact ih.trans (h _ _ hr)

/-- C183 (partial: one process, and no entry lost to the threshold).  With positive definite
permeabilities, regular cells and every cell tied to the boundary, the matrix is positive definite:
pressures that are not all zero have a positive form. -/
theorem C183_positive_partial (w : Wy) (K : Nat → Nat → ℝ) (l l' : Local) (s s' : Sys)
    (cor : Nat → Nat → Nat) (num : Nat → Nat) (hnum : GlobalNumbers w num)
    (hown : ∀ c < w.nCells, 0 ≤ w.global c)
    (hstar : ∀ v, w.vStart ≤ v → v < w.vEnd → Star w v (cor v))
    (hreg : ∀ c < w.nCells, Regular w K c)
    (hcov : ∀ v, w.vStart ≤ v → v < w.vEnd → ∀ f ∈ w.faces v, Covered w v (cor v) f)
    (hlost : ∀ v, w.vStart ≤ v → v < w.vEnd → NothingLost w l'.A v) (htied : Tied w cor)
    (hs : ∀ i j, s.K i j = 0) (hok : wyComputeSystem w K l s = .ok (l', s')) (u : Nat → ℝ)
    (hu : ∃ c < w.nCells, u c ≠ 0) :
    0 < ∑ c ∈ range w.nCells, u c*∑ c' ∈ range w.nCells, s'.K (num c) (num c')*u c' := by
  rw [form_sum hnum hown hstar hlost hs hok u]
  have hL := local_ok (system_parts hok).1
  have hnn : ∀ k ∈ range (w.vEnd - w.vStart),
      0 ≤ stencilForm w l'.A (w.vStart + k) (cor (w.vStart + k)) u := by
    intro k hk
    have := mem_range.1 hk
    exact (stencil_definite (hstar _ (by omega) (by omega)) hL hreg (hcov _ (by omega) (by omega)) u).1
  refine lt_of_le_of_ne (sum_nonneg hnn) fun h0 => ?_
  have hz := (sum_eq_zero_iff_of_nonneg hnn).1 h0.symm
  obtain ⟨hlink, hbd⟩ := linked_equal hstar hL hreg hcov u (by
    intro v h1 h2
    have := hz (v - w.vStart) (mem_range.2 (by omega))
    rwa [show w.vStart + (v - w.vStart) = v by omega] at this)
  obtain ⟨c, hc, hne⟩ := hu
  obtain ⟨c', hpath, hb⟩ := htied c hc
  apply hne
  rw [path_equal hlink hpath, hbd c' hb]

/-- The matrix by cells. -/
def byCells (n : Nat) (num : Nat → Nat) (K : Nat → Nat → ℝ) : Matrix (Fin n) (Fin n) ℝ :=
  Matrix.of fun c c' => K (num c) (num c')

theorem byCells_mul (n : Nat) (num : Nat → Nat) (K : Nat → Nat → ℝ) (p : Nat → ℝ) (c : Fin n) :
    (byCells n num K).mulVec (fun i => p i) c = ∑ c' ∈ range n, K (num c) (num c')*p c' := by
  rw [← Fin.sum_univ_eq_sum_range (fun c' => K (num c) (num c')*p c')]
  rfl

/-- C183 (partial: one process, and no entry lost to the threshold).  Whatever the right-hand side, the
system has exactly one solution. -/
theorem C183_one_solution_partial (w : Wy) (K : Nat → Nat → ℝ) (l l' : Local) (s s' : Sys)
    (cor : Nat → Nat → Nat) (num : Nat → Nat) (hnum : GlobalNumbers w num)
    (hown : ∀ c < w.nCells, 0 ≤ w.global c)
    (hstar : ∀ v, w.vStart ≤ v → v < w.vEnd → Star w v (cor v))
    (hreg : ∀ c < w.nCells, Regular w K c)
    (hcov : ∀ v, w.vStart ≤ v → v < w.vEnd → ∀ f ∈ w.faces v, Covered w v (cor v) f)
    (hlost : ∀ v, w.vStart ≤ v → v < w.vEnd → NothingLost w l'.A v) (htied : Tied w cor)
    (hs : ∀ i j, s.K i j = 0) (hok : wyComputeSystem w K l s = .ok (l', s')) (b : Nat → ℝ) :
    (∃ p, SolvesCells w num s'.K b p) ∧
    ∀ p p', SolvesCells w num s'.K b p → SolvesCells w num s'.K b p' → ∀ c < w.nCells, p c = p' c := by
  have hpos := C183_positive_partial w K l l' s s' cor num hnum hown hstar hreg hcov hlost htied hs hok
  have hdet : (byCells w.nCells num s'.K).det ≠ 0 := by
    intro h0
    obtain ⟨x, hx, hxe⟩ := Matrix.exists_mulVec_eq_zero_iff.2 h0
    have hx' : (fun i : Fin w.nCells => entry1 x i) = x := by
      funext i
      exact entry1_apply x i
    have h := hpos (entry1 x) (by
      by_contra hn
      push Not at hn
      exact hx (by rw [← hx']; funext i; exact hn i i.2))
    rw [sum_eq_zero] at h
    · exact lt_irrefl _ h
    intro c hc
    rw [← byCells_mul w.nCells num s'.K (entry1 x) ⟨c, mem_range.1 hc⟩, hx', hxe, Pi.zero_apply, mul_zero]
  refine ⟨⟨entry1 ((byCells w.nCells num s'.K)⁻¹.mulVec fun i => b i), fun c hc => ?_⟩, ?_⟩
  · rw [← byCells_mul w.nCells num s'.K _ ⟨c, hc⟩]
    have : (fun i : Fin w.nCells => entry1 ((byCells w.nCells num s'.K)⁻¹.mulVec fun i => b i) i) =
        (byCells w.nCells num s'.K)⁻¹.mulVec fun i => b i := by
      funext i
      exact entry1_apply _ i
    rw [this, Matrix.mulVec_mulVec, Matrix.mul_nonsing_inv _ (isUnit_iff_ne_zero.2 hdet),
      Matrix.one_mulVec]
  · intro p p' hp hp' c hc
    by_contra hne
    have h := hpos (fun c => p c - p' c) ⟨c, hc, sub_ne_zero.2 hne⟩
    rw [sum_eq_zero] at h
    · exact lt_irrefl _ h
    intro d hd
    simp only [mul_sub, sum_sub_distrib]
    rw [hp d (mem_range.1 hd), hp' d (mem_range.1 hd)]
    ring



end

end TDy.Fe.Props
