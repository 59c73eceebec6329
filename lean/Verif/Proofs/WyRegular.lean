import Mathlib.LinearAlgebra.Matrix.ToLinearEquiv
import Verif.Proofs.WySystem

/-!
# With positive definite permeabilities the systems of the WY method are regular
-/

namespace TDy.Fe.Proofs

open TDy.Fe TDy.Fe.Spec Finset

noncomputable section

theorem forN_total {σ : Type} (n : Nat) (step : Nat → σ → Res σ) (s : σ)
    (h : ∀ i < n, ∀ s, ∃ s', step i s = .ok s') :
    ∃ s', forN n (fun i (r : Res σ) => r.bind (step i)) (.ok s) = .ok s' := by
  induction n with
  | zero => exact ⟨s, rfl⟩
  | succ n ih =>
    obtain ⟨t, ht⟩ := ih (fun i hi => h i (by omega))
    obtain ⟨t', ht'⟩ := h n (by omega) t
    exact ⟨t', by rw [forN, ht, Res.bind, ht']⟩

/-- The pulled back permeability is positive. -/
theorem pulled_pos {n : Nat} {K D : Matrix (Fin n) (Fin n) ℝ} {J : ℝ} (hJ : 0 < J) (hD : D.det ≠ 0)
    (hK : ∀ x : Fin n → ℝ, x ≠ 0 → 0 < dotProduct x (K.mulVec x)) (x : Fin n → ℝ) (hx : x ≠ 0) :
    0 < dotProduct x ((J • (D*K*D.transpose)).mulVec x) := by
  have hne : D.transpose.mulVec x ≠ 0 := by
    intro h0
    apply hD
    rw [← Matrix.det_transpose]
    exact Matrix.exists_mulVec_eq_zero_iff.1 ⟨x, hx, h0⟩
  have := hK _ hne
  rw [Matrix.smul_mulVec, dotProduct_smul, smul_eq_mul]
  refine mul_pos hJ ?_
  rw [← Matrix.mulVec_mulVec, ← Matrix.mulVec_mulVec, Matrix.dotProduct_mulVec, ← Matrix.mulVec_transpose]
  exact this

theorem pos_det {n : Nat} {M : Matrix (Fin n) (Fin n) ℝ}
    (hM : ∀ x : Fin n → ℝ, x ≠ 0 → 0 < dotProduct x (M.mulVec x)) : M.det ≠ 0 := by
  intro h
  obtain ⟨x, hx, h0⟩ := Matrix.exists_mulVec_eq_zero_iff.2 h
  have := hM x hx
  rw [h0, dotProduct_zero] at this
  exact lt_irrefl _ this

theorem inv_pos_def {n : Nat} {M : Matrix (Fin n) (Fin n) ℝ}
    (hM : ∀ x : Fin n → ℝ, x ≠ 0 → 0 < dotProduct x (M.mulVec x)) (y : Fin n → ℝ) (hy : y ≠ 0) :
    0 < dotProduct y (M⁻¹.mulVec y) := by
  have hd := pos_det hM
  have hy' : M.mulVec (M⁻¹.mulVec y) = y := by
    rw [Matrix.mulVec_mulVec, Matrix.mul_nonsing_inv _ (isUnit_iff_ne_zero.2 hd), Matrix.one_mulVec]
  have hne : M⁻¹.mulVec y ≠ 0 := by
    intro h0
    rw [h0, Matrix.mulVec_zero] at hy'
    exact hy hy'.symm
  have := hM _ hne
  rw [hy', dotProduct_comm] at this
  exact this

/-- The matrix of a corner is positive definite. -/
theorem corner_pos {w : Wy} {K : Nat → Nat → ℝ} {c q : Nat} (hJ : 0 < w.J c q)
    (hD : (toMatrix w.dim (w.DFinv c q)).det ≠ 0)
    (hK : ∀ x : Fin w.dim → ℝ, x ≠ 0 → 0 < dotProduct x ((toMatrix w.dim (K c)).mulVec x))
    (z : Nat → ℝ) (hz : ∃ i < w.dim, z i ≠ 0) :
    0 < ∑ i ∈ range w.dim, ∑ j ∈ range w.dim, z i*cornerMass w K c q i j*z j := by
  set M := w.J c q • (toMatrix w.dim (w.DFinv c q)*toMatrix w.dim (K c)
    *(toMatrix w.dim (w.DFinv c q)).transpose) with hM
  have hside : ∀ i, cornerSide q i*cornerSide q i = 1 := by
    intro i
    unfold cornerSide
    split <;> norm_num
  set y : Fin w.dim → ℝ := fun i => cornerSide q i*z i with hy
  have hyne : y ≠ 0 := by
    obtain ⟨i, hi, hzi⟩ := hz
    intro h0
    apply hzi
    have := congrFun h0 ⟨i, hi⟩
    simp only [hy, Pi.zero_apply] at this
    rcases mul_eq_zero.1 this with h | h
    · have := hside i
      rw [h] at this
      norm_num at this
    · exact h
  have hpos := inv_pos_def (pulled_pos hJ hD hK) y hyne
  rw [← hM] at hpos
  have hsum : ∑ i ∈ range w.dim, ∑ j ∈ range w.dim, z i*cornerMass w K c q i j*z j
      = (4/4^w.dim)*dotProduct y (M⁻¹.mulVec y) := by
    rw [← Fin.sum_univ_eq_sum_range (fun i => ∑ j ∈ range w.dim, z i*cornerMass w K c q i j*z j)]
    simp only [← Fin.sum_univ_eq_sum_range, dotProduct, Matrix.mulVec, mul_sum]
    refine sum_congr rfl fun i _ => sum_congr rfl fun j _ => ?_
    unfold cornerMass
    rw [← hM, entry, dif_pos ⟨i.2, j.2⟩]
    simp only [hy, Fin.eta]
    ring
  rw [hsum]
  positivity

theorem corner_nonneg {w : Wy} {K : Nat → Nat → ℝ} {c q : Nat} (hJ : 0 < w.J c q)
    (hD : (toMatrix w.dim (w.DFinv c q)).det ≠ 0)
    (hK : ∀ x : Fin w.dim → ℝ, x ≠ 0 → 0 < dotProduct x ((toMatrix w.dim (K c)).mulVec x))
    (z : Nat → ℝ) : 0 ≤ ∑ i ∈ range w.dim, ∑ j ∈ range w.dim, z i*cornerMass w K c q i j*z j := by
  by_cases hz : ∃ i < w.dim, z i ≠ 0
  · exact (corner_pos hJ hD hK z hz).le
  · push Not at hz
    refine (sum_eq_zero fun i hi => sum_eq_zero fun j _ => ?_).ge
    rw [hz i (mem_range.1 hi), zero_mul, zero_mul]

/-- The energy of the velocities `x` at a vertex. -/
theorem aMat_energy {w : Wy} {v : Nat} {cor : Nat → Nat} (h : Star w v cor) {K : Nat → Nat → ℝ} {l : Local}
    (hl : ∀ c < w.nCells, LocalIs w K l c) (x : Nat → ℝ) :
    ∑ r ∈ range (w.faces v).length, x r*∑ k ∈ range (w.faces v).length, aMat w l.A v cor r k*x k
      = ∑ c ∈ (w.cells v).toFinset, ∑ i ∈ range w.dim, ∑ j ∈ range w.dim,
        (w.sign c (cor c) i*w.V (w.face c (cor c) i)*x (Fi w v (w.face c (cor c) i)))
        *cornerMass w K c (cor c) i j
        *(w.sign c (cor c) j*w.V (w.face c (cor c) j)*x (Fi w v (w.face c (cor c) j))) := by
  simp only [aMat_mul h, mul_sum]
  rw [sum_comm]
  refine sum_congr rfl fun c hc => ?_
  rw [sum_comm]
  refine sum_congr rfl fun i hi => ?_
  have hc' := List.mem_toFinset.1 hc
  rw [sum_eq_single (Fi w v (w.face c (cor c) i))]
  · rw [if_pos rfl, mul_sum]
    refine sum_congr rfl fun j hj => ?_
    unfold aTerm
    rw [((hl c (cells_lt hc')).1 _ (h.cor_lt c hc')).2.2 i (mem_range.1 hi) j (mem_range.1 hj)]
    ring
  · intro r _ hr
    rw [if_neg hr, mul_zero]
  · intro hn
    exact absurd (mem_range.2 (Fi_lt (h.face_mem c hc' i (mem_range.1 hi)))) hn

theorem aMat_det {w : Wy} {v : Nat} {cor : Nat → Nat} (h : Star w v cor) {K : Nat → Nat → ℝ} {l : Local}
    (hl : ∀ c < w.nCells, LocalIs w K l c) (hreg : ∀ c < w.nCells, Regular w K c)
    (hcov : ∀ f ∈ w.faces v, Covered w v cor f) :
    (mat (w.faces v).length (w.faces v).length (aMat w l.A v cor)).det ≠ 0 := by
  intro hdet
  obtain ⟨x, hx, h0⟩ := Matrix.exists_mulVec_eq_zero_iff.2 hdet
  set y := entry1 x with hy
  have hrow : ∀ r < (w.faces v).length,
      ∑ k ∈ range (w.faces v).length, aMat w l.A v cor r k*y k = 0 := by
    intro r hr
    have := congrFun h0 ⟨r, hr⟩
    rw [← Fin.sum_univ_eq_sum_range (fun k => aMat w l.A v cor r k*y k)]
    rw [Matrix.mulVec, dotProduct] at this
    rw [← show _ = (0:ℝ) from this]
    refine sum_congr rfl fun k _ => ?_
    rw [hy, entry1_apply]
    rfl
  have hen := aMat_energy h hl y
  rw [sum_eq_zero (fun r hr => by rw [hrow r (mem_range.1 hr), mul_zero])] at hen
  have hcell := (sum_eq_zero_iff_of_nonneg (fun c hc => by
    have hc' := List.mem_toFinset.1 hc
    have hr := hreg c (cells_lt hc')
    exact corner_nonneg (hr.2 _ (h.cor_lt c hc')).1 (hr.2 _ (h.cor_lt c hc')).2 hr.1 (fun i =>
      w.sign c (cor c) i*w.V (w.face c (cor c) i)*y (Fi w v (w.face c (cor c) i))))).1 hen.symm
  apply hx
  funext k
  have hf : (w.faces v)[k] ∈ w.faces v := List.getElem_mem k.2
  obtain ⟨c, hc, i, hi, hfi, hs, hV⟩ := hcov _ hf
  have hr := hreg c (cells_lt hc)
  by_contra hne
  have hpos := corner_pos (hr.2 _ (h.cor_lt c hc)).1 (hr.2 _ (h.cor_lt c hc)).2 hr.1 (fun i =>
      w.sign c (cor c) i*w.V (w.face c (cor c) i)*y (Fi w v (w.face c (cor c) i))) ⟨i, hi, by
    rw [hfi]
    have hk : Fi w v (w.faces v)[k] = k := h.faces_nodup.idxOf_getElem k k.2
    rw [hk, hy, entry1_apply]
    exact mul_ne_zero (mul_ne_zero hs hV) hne⟩
  rw [hcell c (List.mem_toFinset.2 hc)] at hpos
  exact lt_irrefl _ hpos

theorem local_total {w : Wy} {K : Nat → Nat → ℝ} (hreg : ∀ c < w.nCells, Regular w K c) (l : Local) :
    ∃ l', localElementCompute w K l = .ok l' := by
  unfold localElementCompute
  refine forN_total _ (fun c (l : Local) => forN w.nq (fun q (r : Res Local) =>
    r.bind (localPoint w K c q)) (.ok ⟨l.A, wr l.F c 0⟩)) _ (fun c hc l => ?_)
  refine forN_total _ _ _ (fun q hq l => ?_)
  have hr := hreg c hc
  unfold localPoint
  rw [if_neg (not_lt.2 (hr.2 q hq).1.le)]
  have hd := pos_det (pulled_pos (hr.2 q hq).1 (hr.2 q hq).2 hr.1)
  unfold pullback
  dsimp only
  rw [if_neg hd]
  exact ⟨_, rfl⟩

theorem systemVertex_total {w : Wy} {v : Nat} {cor : Nat → Nat} (h : Star w v cor) {K : Nat → Nat → ℝ}
    {l : Local} (hl : ∀ c < w.nCells, LocalIs w K l c) (hreg : ∀ c < w.nCells, Regular w K c)
    (hcov : ∀ f ∈ w.faces v, Covered w v cor f) (hs : ¬ tooLarge w v) (s : Sys) :
    ∃ s', systemVertex w l.A v s = .ok s' := by
  unfold systemVertex
  obtain ⟨t, ht, hA, _, _⟩ := system_closed h l.A hs
  rw [ht]
  dsimp only
  unfold formStencil
  have hA' : t.A = aMat w l.A v cor := by funext r k; exact hA r k
  rw [hA']
  dsimp only
  rw [if_neg (aMat_det h hl hreg hcov)]
  exact ⟨_, rfl⟩

theorem velocityVertex_total {w : Wy} {v : Nat} {cor : Nat → Nat} (h : Star w v cor) {K : Nat → Nat → ℝ}
    {l : Local} (hl : ∀ c < w.nCells, LocalIs w K l c) (hreg : ∀ c < w.nCells, Regular w K c)
    (hcov : ∀ f ∈ w.faces v, Covered w v cor f)
    (hs : ¬ 144 < (w.faces v).length*(w.faces v).length) (u : Nat → ℝ) (vel : Nat → Nat → ℝ) :
    ∃ vel', velocityVertex w l.A u v vel = .ok vel' := by
  unfold velocityVertex
  obtain ⟨t, ht, hA, _⟩ := velocity_closed h l.A u hs
  rw [ht]
  dsimp only
  unfold recoverVelocity
  have hA' : t.A = aMat w l.A v cor := by funext r k; exact hA r k
  rw [hA']
  dsimp only
  rw [if_neg (aMat_det h hl hreg hcov)]
  exact ⟨_, rfl⟩

end

end TDy.Fe.Proofs
