import Verif.Spec.WyLinear
import Verif.Proofs.WyVelocity

/-!
# Linear pressures on affine cells
-/

namespace TDy.Fe.Proofs

open TDy.Fe TDy.Fe.Spec Finset

noncomputable section

theorem cornerSide_sq (q i : Nat) : cornerSide q i*cornerSide q i = 1 := by
  unfold cornerSide
  split <;> norm_num

/-- The flux of a constant velocity through a face of an affine cell, in the coordinates of the reference
cell. -/
theorem affine_flux {w : Wy} {c q : Nat} {D : Matrix (Fin w.dim) (Fin w.dim) ℝ} (h : Affine w c D)
    (hq : q < w.nq) (W : Fin w.dim → ℝ) (j : Fin w.dim) :
    w.sign c q j*w.V (w.face c q j)*normalVelocity w W (w.face c q j)
      = -(2^(w.dim - 1)*D.det*cornerSide q j*D⁻¹.mulVec W j) := by
  have hd : IsUnit D.det := isUnit_iff_ne_zero.2 h.volume.ne'
  have hW : ∀ k, W k = ∑ m, D k m*D⁻¹.mulVec W m := by
    intro k
    have : D.mulVec (D⁻¹.mulVec W) k = W k := by
      rw [Matrix.mulVec_mulVec, Matrix.mul_nonsing_inv _ hd, Matrix.one_mulVec]
    rw [← this]
    rfl
  have h1 : ∑ k : Fin w.dim, W k*w.N (w.face c q j) k
      = (∑ k : Fin w.dim, w.N (w.face c q j) k*D k j)*D⁻¹.mulVec W j := by
    have : ∀ k, W k*w.N (w.face c q j) k
        = ∑ m, w.N (w.face c q j) k*D k m*D⁻¹.mulVec W m := by
      intro k
      rw [hW k, sum_mul]
      exact sum_congr rfl fun m _ => by ring
    rw [sum_congr rfl (fun k _ => this k), sum_comm, sum_eq_single j]
    · rw [sum_mul]
    · intro m _ hm
      rw [← sum_mul, h.normal q hq j m hm, zero_mul]
    · intro hj
      exact absurd (mem_univ j) hj
  have h2 := h.area q hq j
  have h3 : ∑ k : Fin w.dim, w.N (w.face c q j) k*(2*cornerSide q j*D k j)
      = 2*cornerSide q j*∑ k : Fin w.dim, w.N (w.face c q j) k*D k j := by
    rw [mul_sum]
    exact sum_congr rfl fun k _ => by ring
  rw [h3] at h2
  have hp : (2:ℝ)^w.dim = 2*2^(w.dim - 1) := by
    rw [← pow_succ', Nat.sub_add_cancel (by have := j.2; omega)]
  rw [hp] at h2
  have h4 : w.sign c q j*w.V (w.face c q j)*∑ k : Fin w.dim, w.N (w.face c q j) k*D k j
      = 2^(w.dim - 1)*D.det*cornerSide q j := by
    linear_combination (1/2)*cornerSide q j*h2
      - w.sign c q j*w.V (w.face c q j)*(∑ k : Fin w.dim, w.N (w.face c q j) k*D k j)*cornerSide_sq q j
  unfold normalVelocity
  rw [h1]
  linear_combination -(D⁻¹.mulVec W j)*h4

/-- On an affine cell the exact velocities meet Darcy's law at every face of a corner. -/
theorem affine_darcy {w : Wy} {K : Nat → Nat → ℝ} {c q : Nat} {D : Matrix (Fin w.dim) (Fin w.dim) ℝ}
    (h : Affine w c D) (hq : q < w.nq) {g W : Fin w.dim → ℝ} (hW : (toMatrix w.dim (K c)).mulVec g = W)
    (hdet : (w.J c q • (toMatrix w.dim (w.DFinv c q)*toMatrix w.dim (K c)
      *(toMatrix w.dim (w.DFinv c q)).transpose)).det ≠ 0) (b : ℝ) {i : Nat} (hi : i < w.dim) :
    ∑ j ∈ range w.dim, cornerMass w K c q i j*(w.sign c q i*w.V (w.face c q i))
        *(w.sign c q j*w.V (w.face c q j))*normalVelocity w W (w.face c q j)
      = (1/2)^(w.dim - 1)*w.sign c q i*w.V (w.face c q i)
        *(linearAt w b g c - linearAt w b g (w.face c q i)) := by
  have hd : IsUnit D.det := isUnit_iff_ne_zero.2 h.volume.ne'
  rw [h.inverse q hq, h.jacobian q hq] at hdet
  set M := D.det • (D⁻¹*toMatrix w.dim (K c)*(D⁻¹).transpose) with hM
  have hsol : M⁻¹.mulVec (D.det • D⁻¹.mulVec W) = D.transpose.mulVec g := by
    have : D.det • D⁻¹.mulVec W = M.mulVec (D.transpose.mulVec g) := by
      rw [hM, Matrix.smul_mulVec, Matrix.mulVec_mulVec, Matrix.mul_assoc, ← Matrix.transpose_mul,
        Matrix.mul_nonsing_inv _ hd, Matrix.transpose_one, Matrix.mul_one, ← Matrix.mulVec_mulVec, hW]
    rw [this, Matrix.mulVec_mulVec, Matrix.nonsing_inv_mul _ (isUnit_iff_ne_zero.2 hdet),
      Matrix.one_mulVec]
  have hrow : ∑ j : Fin w.dim, M⁻¹ ⟨i, hi⟩ j*(D.det*D⁻¹.mulVec W j) = ∑ k, D k ⟨i, hi⟩*g k :=
    congrFun hsol ⟨i, hi⟩
  have hterm : ∀ j : Fin w.dim, cornerMass w K c q i j*(w.sign c q i*w.V (w.face c q i))
        *(w.sign c q j*w.V (w.face c q j))*normalVelocity w W (w.face c q j)
      = -((4/4^w.dim*2^(w.dim - 1))*cornerSide q i*(w.sign c q i*w.V (w.face c q i)))
        *(M⁻¹ ⟨i, hi⟩ j*(D.det*D⁻¹.mulVec W j)) := by
    intro j
    have hf := affine_flux h hq W j
    have hc : cornerMass w K c q i j = M⁻¹ ⟨i, hi⟩ j*cornerSide q i*cornerSide q j*(4/4^w.dim) := by
      unfold cornerMass entry
      rw [dif_pos ⟨hi, j.2⟩, h.inverse q hq, h.jacobian q hq]
    rw [hc]
    linear_combination (M⁻¹ ⟨i, hi⟩ j*cornerSide q i*cornerSide q j*(4/4^w.dim)
      *(w.sign c q i*w.V (w.face c q i)))*hf
      - (M⁻¹ ⟨i, hi⟩ j*cornerSide q i*(4/4^w.dim)*(w.sign c q i*w.V (w.face c q i))
        *2^(w.dim - 1)*D.det*D⁻¹.mulVec W j)*cornerSide_sq q j
  rw [← Fin.sum_univ_eq_sum_range (fun j => cornerMass w K c q i j*(w.sign c q i*w.V (w.face c q i))
        *(w.sign c q j*w.V (w.face c q j))*normalVelocity w W (w.face c q j)),
    sum_congr rfl (fun j _ => hterm j), ← mul_sum, hrow]
  have hp : (4:ℝ)/4^w.dim*2^(w.dim - 1) = (1/2)^(w.dim - 1) := by
    obtain ⟨m, hm⟩ : ∃ m, w.dim = m + 1 := ⟨w.dim - 1, by omega⟩
    rw [hm, Nat.add_sub_cancel, pow_succ, show (4:ℝ)^m = 2^m*2^m by rw [← mul_pow]; norm_num, one_div,
      inv_pow]
    field_simp
  have hlin : linearAt w b g c - linearAt w b g (w.face c q i)
      = -(cornerSide q i*∑ k, D k ⟨i, hi⟩*g k) := by
    unfold linearAt
    have : ∀ k : Fin w.dim, g k*w.X (w.face c q i) k
        = g k*w.X c k + cornerSide q i*(D k ⟨i, hi⟩*g k) := by
      intro k
      have := h.centroid q hq ⟨i, hi⟩ k
      dsimp only at this
      rw [this]
      ring
    rw [sum_congr rfl (fun k _ => this k), sum_add_distrib, ← mul_sum]
    ring
  rw [hlin, hp]
  ring

/-- Half of the corners lie on either side. -/
theorem sum_cornerSide {n d : Nat} (hd : d < n) : ∑ q ∈ range (2^n), cornerSide q d = 0 := by
  have hflip : ∀ q, (q ^^^ 2^d).testBit d = !q.testBit d := by
    intro q
    rw [Nat.testBit_xor, Nat.testBit_two_pow_self, Bool.xor_true]
  refine sum_involution (fun q _ => q ^^^ 2^d) ?_ ?_ ?_ ?_
  · intro q _
    unfold cornerSide
    rw [hflip]
    cases q.testBit d <;> simp
  · intro q _ _ he
    have := hflip q
    rw [he] at this
    cases h : q.testBit d <;> simp [h] at this
  · intro q hq
    exact mem_range.2 (Nat.xor_lt_two_pow (mem_range.1 hq) (Nat.pow_lt_pow_right (by omega) hd))
  · intro q _
    rw [Nat.xor_assoc, Nat.xor_self, Nat.xor_zero]

/-- Velocities are recovered only where the systems of the vertices are regular. -/
theorem recover_det {w : Wy} {cor : Nat → Nat → Nat}
    (hstar : ∀ v, w.vStart ≤ v → v < w.vEnd → Star w v (cor v))
    {Al : Nat → Nat → Nat → ℝ} {u : Nat → ℝ} {vel vel' : Nat → Nat → ℝ}
    (hok : wyRecoverVelocity w Al u vel = .ok vel') :
    ∀ v, w.vStart ≤ v → v < w.vEnd →
      (mat (w.faces v).length (w.faces v).length (aMat w Al v (cor v))).det ≠ 0 := by
  suffices h : ∀ k < w.vEnd - w.vStart,
      (mat (w.faces (w.vStart + k)).length (w.faces (w.vStart + k)).length
        (aMat w Al (w.vStart + k) (cor (w.vStart + k)))).det ≠ 0 by
    intro v h1 h2
    have := h (v - w.vStart) (by omega)
    rwa [Nat.add_sub_cancel' h1] at this
  refine forN_res (w.vEnd - w.vStart) (fun k => velocityVertex w Al u (w.vStart + k))
    (fun m (_ : Nat → Nat → ℝ) => ∀ k < m,
      (mat (w.faces (w.vStart + k)).length (w.faces (w.vStart + k)).length
        (aMat w Al (w.vStart + k) (cor (w.vStart + k)))).det ≠ 0) vel vel' (by simp) ?_ hok
  intro m hm t t' ht hstep k hk
  by_cases hkm : k = m
  · subst hkm
    unfold velocityVertex at hstep
    by_cases hs : 144 < (w.faces (w.vStart + k)).length*(w.faces (w.vStart + k)).length
    · unfold vertexVelocity at hstep
      rw [if_pos hs] at hstep
      exact absurd hstep (by simp)
    · obtain ⟨r, hr, hA, -⟩ := velocity_closed (hstar (w.vStart + k) (by omega) (by omega)) Al u hs
      rw [hr] at hstep
      dsimp only at hstep
      unfold recoverVelocity at hstep
      dsimp only at hstep
      intro hd
      rw [if_pos] at hstep
      · exact absurd hstep (by simp)
      · rw [← hd]
        congr 1
        ext a b
        exact hA a b
  · exact ht k (by omega)

end

end TDy.Fe.Proofs
