import Verif.Proofs.WySystem

/-!
# C76: the WY stencil is symmetric, the velocities satisfy Darcy's law, uniform pressure is at rest
-/

namespace TDy.Fe.Props

open TDy.Fe TDy.Fe.Spec TDy.Fe.Proofs Finset

noncomputable section

/-- C76.  The velocities recovered from cell pressures `u` satisfy the discrete Darcy law at every face
of every vertex, for the permeabilities `K` the element matrices were computed from. -/
theorem C76_darcy_law (w : Wy) (K : Nat → Nat → ℝ) (l l' : Local) (u : Nat → ℝ)
    (vel vel' : Nat → Nat → ℝ) (cor : Nat → Nat → Nat) (pl : Nat → Nat → Nat)
    (hstar : ∀ v, w.vStart ≤ v → v < w.vEnd → Star w v (cor v))
    (hpl : ∀ v, w.vStart ≤ v → v < w.vEnd → ∀ f ∈ w.faces v, Place w f v (pl f v))
    (hl : localElementCompute w K l = .ok l') (hok : wyRecoverVelocity w l'.A u vel = .ok vel') :
    ∀ v, w.vStart ≤ v → v < w.vEnd → ∀ f ∈ w.faces v,
      DarcyAt w K u v (cor v) (fun f => vel' f (pl f v)) f := by
  intro v h1 h2 f hf
  have hst := hstar v h1 h2
  obtain ⟨y, hy, hs, _⟩ := recover_ok hstar hpl hok v h1 h2
  have hrow := hs (Fi w v f) (Fi_lt hf)
  rw [aMat_mul hst] at hrow
  unfold DarcyAt
  have hL := local_ok hl
  have hif : ∀ c i, (Fi w v f = Fi w v (w.face c (cor v c) i)) ↔ w.face c (cor v c) i = f :=
    fun c i => (Fi_eq hf).trans eq_comm
  have h3 : ∀ c ∈ (w.cells v).toFinset, ∀ i ∈ range w.dim,
      (if Fi w v f = Fi w v (w.face c (cor v c) i) then
        ∑ j ∈ range w.dim, aTerm w l'.A (cor v) c i j*y (Fi w v (w.face c (cor v c) j)) else 0)
      = if w.face c (cor v c) i = f then
        ∑ j ∈ range w.dim, cornerMass w K c (cor v c) i j*(w.sign c (cor v c) i*w.V f)
        *(w.sign c (cor v c) j*w.V (w.face c (cor v c) j))
        *vel' (w.face c (cor v c) j) (pl (w.face c (cor v c) j) v) else 0 := by
    intro c hc i hi
    have hc' := List.mem_toFinset.1 hc
    by_cases hfi : w.face c (cor v c) i = f
    · rw [if_pos hfi, if_pos ((hif c i).2 hfi)]
      refine sum_congr rfl fun j hj => ?_
      rw [← hy _ (hst.face_mem c hc' j (mem_range.1 hj))]
      unfold aTerm
      rw [((hL c (cells_lt hc')).1 _ (hst.cor_lt c hc')).2.2 i (mem_range.1 hi) j (mem_range.1 hj), hfi]
      ring
    · rw [if_neg hfi, if_neg (fun h => hfi ((hif c i).1 h))]
  rw [← sum_congr rfl (fun c hc => sum_congr rfl (h3 c hc)), hrow]
  unfold fVec gVec
  rw [← sum_sub_distrib]
  refine sum_congr rfl fun c hc => ?_
  rw [← sum_sub_distrib]
  refine sum_congr rfl fun i hi => ?_
  by_cases hfi : w.face c (cor v c) i = f
  · rw [if_pos hfi, if_pos ((hif c i).2 hfi)]
    unfold bTerm wgt Wy.given
    rw [hfi]
    by_cases hg : w.bc f = true ∧ w.hasPressure = true
    · rw [if_pos hg, if_pos ⟨rfl, by rw [hg.1, hg.2]; rfl⟩]
      ring
    · rw [if_neg hg, if_neg (fun h => hg (by simpa using h.2))]
      ring
  · rw [if_neg hfi, if_neg (fun h => hfi ((hif c i).1 h)), if_neg (fun h => hfi ((hif c i).1 h.1)), sub_zero]

/-- C76.  If all cells and all given boundary values have the same pressure, and every other face lies
between cells that see it from opposite sides, then all velocities are zero. -/
theorem C76_uniform_pressure_no_flow (w : Wy) (Al : Nat → Nat → Nat → ℝ) (p : ℝ) (u : Nat → ℝ)
    (vel vel' : Nat → Nat → ℝ) (cor : Nat → Nat → Nat) (pl : Nat → Nat → Nat)
    (hstar : ∀ v, w.vStart ≤ v → v < w.vEnd → Star w v (cor v))
    (hpl : ∀ v, w.vStart ≤ v → v < w.vEnd → ∀ f ∈ w.faces v, Place w f v (pl f v))
    (hu : ∀ c < w.nCells, u c = p) (hp : ∀ f, Wy.given w f → w.pb f = p)
    (hsides : ∀ v, w.vStart ≤ v → v < w.vEnd → ∀ f ∈ w.faces v, ¬ Wy.given w f →
      Opposite w v (cor v) f)
    (hok : wyRecoverVelocity w Al u vel = .ok vel') :
    ∀ v, w.vStart ≤ v → v < w.vEnd → ∀ f ∈ w.faces v, vel' f (pl f v) = 0 := by
  intro v h1 h2 f hf
  have hst := hstar v h1 h2
  obtain ⟨y, hy, _, hz⟩ := recover_ok hstar hpl hok v h1 h2
  rw [hy f hf]
  apply hz
  intro r hr
  set g := (w.faces v)[r] with hgdef
  have hg : g ∈ w.faces v := List.getElem_mem hr
  have hrg : r = Fi w v g := (hst.faces_nodup.idxOf_getElem r hr).symm
  rw [hrg]
  unfold fVec gVec
  rw [← sum_sub_distrib]
  have hif : ∀ c i, (Fi w v g = Fi w v (w.face c (cor v c) i)) ↔ w.face c (cor v c) i = g :=
    fun c i => (Fi_eq hg).trans eq_comm
  by_cases hgiv : Wy.given w g
  · refine sum_eq_zero fun c hc => ?_
    rw [← sum_sub_distrib]
    refine sum_eq_zero fun i hi => ?_
    by_cases hfi : w.face c (cor v c) i = g
    · rw [if_pos ((hif c i).2 hfi), if_pos ⟨(hif c i).2 hfi, by rw [hfi, hgiv.1, hgiv.2]; rfl⟩, hfi,
        hp g hgiv, hu c (cells_lt (List.mem_toFinset.1 hc)), sub_self]
    · rw [if_neg (fun h => hfi ((hif c i).1 h)), if_neg (fun h => hfi ((hif c i).1 h.1)), sub_zero]
  · have hopp := hsides v h1 h2 g hg hgiv
    unfold Opposite at hopp
    have : ∀ c ∈ (w.cells v).toFinset, ((∑ i ∈ range w.dim,
        if Fi w v g = Fi w v (w.face c (cor v c) i) then bTerm w (cor v) c i*u c else 0)
        - ∑ i ∈ range w.dim, if Fi w v g = Fi w v (w.face c (cor v c) i)
          ∧ (w.bc (w.face c (cor v c) i) && w.hasPressure) = true then
          bTerm w (cor v) c i*w.pb (w.face c (cor v c) i) else 0)
        = (wgt w*w.V g*p)*∑ i ∈ range w.dim, if w.face c (cor v c) i = g then w.sign c (cor v c) i else 0 := by
      intro c hc
      rw [← sum_sub_distrib, mul_sum]
      refine sum_congr rfl fun i hi => ?_
      by_cases hfi : w.face c (cor v c) i = g
      · rw [if_pos ((hif c i).2 hfi), if_pos hfi, if_neg, hu c (cells_lt (List.mem_toFinset.1 hc))]
        · unfold bTerm
          rw [hfi]
          ring
        · rintro ⟨_, hb⟩
          rw [hfi] at hb
          exact hgiv (by simpa [Wy.given] using hb)
      · rw [if_neg (fun h => hfi ((hif c i).1 h)), if_neg (fun h => hfi ((hif c i).1 h.1)), if_neg hfi]
        ring
    rw [sum_congr rfl this, ← mul_sum, hopp, mul_zero]

theorem symmetric_rows (w : Wy) (K : Nat → Nat → ℝ) (l l' : Local) (s s' : Sys) (cor : Nat → Nat → Nat)
    (hstar : ∀ v, w.vStart ≤ v → v < w.vEnd → Star w v (cor v))
    (hK : ∀ c < w.nCells, (toMatrix w.dim (K c)).IsSymm)
    (hrow : ∀ c < w.nCells, ∀ c' < w.nCells, w.row c = w.row c' → c = c')
    (hs : ∀ c < w.nCells, ∀ c' < w.nCells, 0 ≤ w.global c → 0 ≤ w.global c' →
      s.K (w.row c) (w.row c') = s.K (w.row c') (w.row c))
    (hok : wyComputeSystem w K l s = .ok (l', s')) :
    ∀ c < w.nCells, ∀ c' < w.nCells, 0 ≤ w.global c → 0 ≤ w.global c' →
      s'.K (w.row c) (w.row c') = s'.K (w.row c') (w.row c) := by
  obtain ⟨hl, t, ht, rfl⟩ := system_parts hok
  rw [forcing_K]
  have hL := local_ok hl
  refine forN_res _ (fun k => systemVertex w l'.A (w.vStart + k)) (fun _ (s : Sys) =>
    ∀ c < w.nCells, ∀ c' < w.nCells, 0 ≤ w.global c → 0 ≤ w.global c' →
      s.K (w.row c) (w.row c') = s.K (w.row c') (w.row c)) s t hs ?_ ht
  intro k hk s s' hs hstep c hc c' hc' ho ho'
  have hst := hstar (w.vStart + k) (by omega) (by omega)
  obtain ⟨_, rfl⟩ := stencil_ok hst hstep
  generalize hC : entry ((mat (w.faces (w.vStart + k)).length (w.cells (w.vStart + k)).length
    (bMat w (w.vStart + k) (cor (w.vStart + k)))).transpose
    *(mat (w.faces (w.vStart + k)).length (w.faces (w.vStart + k)).length
      (aMat w l'.A (w.vStart + k) (cor (w.vStart + k))))⁻¹
    *mat (w.faces (w.vStart + k)).length (w.cells (w.vStart + k)).length
      (bMat w (w.vStart + k) (cor (w.vStart + k)))) = C
  have hsym : ∀ i j, C i j = C j i := by
    intro i j
    rw [← hC]
    exact stencil_symm _ (aMat_symm hst hL hK) i j
  rw [insert_K, insert_K, hs c hc c' hc' ho ho']
  congr 1
  have hin : ∀ m < (w.cells (w.vStart + k)).length, (w.cells (w.vStart + k)).getD m 0 < w.nCells := by
    intro m hm
    rw [getD_lt _ hm]
    exact cells_lt (List.getElem_mem hm)
  have own : ∀ a b, a < w.nCells → 0 ≤ w.global a → (∑ m ∈ range (w.cells (w.vStart + k)).length,
      if 0 ≤ w.global ((w.cells (w.vStart + k)).getD m 0) then
      ∑ q ∈ range (w.cells (w.vStart + k)).length,
        if |C m q| < w.tol*maxAbs (w.cells (w.vStart + k)).length C then 0
        else if w.row a = w.row ((w.cells (w.vStart + k)).getD m 0)
          ∧ b = w.row ((w.cells (w.vStart + k)).getD q 0) then C m q else 0 else 0)
      = ∑ m ∈ range (w.cells (w.vStart + k)).length, ∑ q ∈ range (w.cells (w.vStart + k)).length,
        if |C m q| < w.tol*maxAbs (w.cells (w.vStart + k)).length C then 0
        else if w.row a = w.row ((w.cells (w.vStart + k)).getD m 0)
          ∧ b = w.row ((w.cells (w.vStart + k)).getD q 0) then C m q else 0 := by
    intro a b ha hao
    refine sum_congr rfl fun m hm => ?_
    by_cases hg : 0 ≤ w.global ((w.cells (w.vStart + k)).getD m 0)
    · rw [if_pos hg]
    · rw [if_neg hg]
      symm
      refine sum_eq_zero fun q _ => ?_
      split
      · rfl
      · rw [if_neg]
        rintro ⟨h1, _⟩
        rw [← hrow a ha _ (hin m (mem_range.1 hm)) h1] at hg
        exact hg hao
  rw [own c _ hc ho, own c' _ hc' ho', sum_comm]
  refine sum_congr rfl fun m _ => sum_congr rfl fun q _ => ?_
  rw [hsym q m]
  refine if_congr Iff.rfl rfl (if_congr ?_ rfl rfl)
  tauto

/-- C76.  With symmetric permeabilities the assembled matrix is symmetric on the rows of this process:
stencils, and the choice of the entries that are left out, are. -/
theorem C76_symmetric (w : Wy) (K : Nat → Nat → ℝ) (l l' : Local) (s s' : Sys) (cor : Nat → Nat → Nat)
    (num : Nat → Nat) (hnum : GlobalNumbers w num)
    (hstar : ∀ v, w.vStart ≤ v → v < w.vEnd → Star w v (cor v))
    (hK : ∀ c < w.nCells, (toMatrix w.dim (K c)).IsSymm)
    (hs : ∀ c < w.nCells, ∀ c' < w.nCells, 0 ≤ w.global c → 0 ≤ w.global c' →
      s.K (num c) (num c') = s.K (num c') (num c))
    (hok : wyComputeSystem w K l s = .ok (l', s')) :
    ∀ c < w.nCells, ∀ c' < w.nCells, 0 ≤ w.global c → 0 ≤ w.global c' →
      s'.K (num c) (num c') = s'.K (num c') (num c) := by
  intro c hc c' hc' ho ho'
  rw [← row_num hnum hc, ← row_num hnum hc']
  refine symmetric_rows w K l l' s s' cor hstar hK (row_inj hnum) ?_ hok c hc c' hc' ho ho'
  intro a ha b hb h1 h2
  rw [row_num hnum ha, row_num hnum hb]
  exact hs a ha b hb h1 h2

end

end TDy.Fe.Props
