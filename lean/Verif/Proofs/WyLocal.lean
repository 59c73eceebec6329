import Mathlib.LinearAlgebra.Matrix.NonsingularInverse
import Verif.Proofs.Wy

/-!
# The element matrices, the stored velocities and the inserted stencils of the WY method
-/

namespace TDy.Fe.Proofs

open TDy.Fe TDy.Fe.Spec Finset
open TDy.Fvtpf (addAt addMat)
open TDy.Fvtpf.Proofs (addAt_apply addMat_apply)

noncomputable section

/-- A loop that succeeds keeps what its successful steps keep. -/
theorem forN_res {σ : Type} (n : Nat) (step : Nat → σ → Res σ) (I : Nat → σ → Prop) (s s' : σ)
    (h0 : I 0 s) (hs : ∀ i < n, ∀ s s', I i s → step i s = .ok s' → I (i + 1) s')
    (hok : forN n (fun i (r : Res σ) => r.bind (step i)) (.ok s) = .ok s') : I n s' := by
  induction n generalizing s' with
  | zero =>
    rw [forN, Res.ok.injEq] at hok
    exact hok ▸ h0
  | succ n ih =>
    rw [forN] at hok
    cases hr : forN n (fun i (r : Res σ) => r.bind (step i)) (.ok s) with
    | ok t =>
      rw [hr] at hok
      exact hs n (by omega) t s' (ih t (fun i hi => hs i (by omega)) hr) hok
    | err t => rw [hr] at hok; simp [Res.bind] at hok
    | ub => rw [hr] at hok; simp [Res.bind] at hok

theorem pos_inj2 {n i j i' j' : Nat} (hi : i < n) (hi' : i' < n) (h : j*n + i = j'*n + i') :
    j = j' ∧ i = i' := by
  have h1 : (j*n + i) / n = j := by
    rw [Nat.mul_comm, Nat.mul_add_div (by omega), Nat.div_eq_of_lt hi, Nat.add_zero]
  have h2 : (j'*n + i') / n = j' := by
    rw [Nat.mul_comm, Nat.mul_add_div (by omega), Nat.div_eq_of_lt hi', Nat.add_zero]
  have : j = j' := by rw [← h1, h, h2]
  subst this
  exact ⟨rfl, by omega⟩

theorem fill_square (n : Nat) (v : Nat → Nat → ℝ) (A : Nat → ℝ) :
    ∀ i < n, ∀ j < n, forN n (fun i A => forN n (fun j A => wr A (j*n + i) (v i j)) A) A (j*n + i)
      = v i j := by
  refine forN_invariant n _ A (fun m A => ∀ i < m, ∀ j < n, A (j*n + i) = v i j) (by simp) ?_
  intro m A hm hA
  have := forN_invariant n (fun j A => wr A (j*n + m) (v m j)) A
    (fun k A => (∀ i < m, ∀ j < n, A (j*n + i) = v i j) ∧ ∀ j < k, A (j*n + m) = v m j)
    ⟨hA, by simp⟩ (by
      rintro k A hk ⟨h1, h2⟩
      refine ⟨fun i hi j hj => ?_, fun j hj => ?_⟩
      · rw [wr_other]
        · exact h1 i hi j hj
        · intro h
          have := (pos_inj2 (by omega) hm h).2
          omega
      · by_cases hjk : j = k
        · subst hjk
          exact wr_same _ _ _
        · rw [wr_other]
          · exact h2 j (by omega)
          · intro h
            exact hjk (pos_inj2 hm hm h).1)
  intro i hi j hj
  by_cases him : i = m
  · subst him
    exact this.2 j hj
  · exact this.1 i (by omega) j hj

theorem elementSide_eq (q i : Nat) : elementSide q i = cornerSide q i := by
  have h2 : forN i (fun _ m => m*2) 1 = 2^i := by
    induction i with
    | zero => rfl
    | succ n ih => rw [forN, ih, pow_succ]
  unfold elementSide cornerSide
  dsimp only
  rw [h2, Nat.testBit_eq_decide_div_mod_eq]
  rcases Nat.mod_two_eq_zero_or_one (q / 2^i) with h | h <;> simp [h]

theorem side_form (n q : Nat) (K : Nat → ℝ) {i j : Nat} (hi : i < n) (hj : j < n) :
    kDotADotB K (sideVector q i) (sideVector q j) n = K (i*n + j)*cornerSide q i*cornerSide q j := by
  rw [← elementSide_eq, ← elementSide_eq]
  rw [kDotADotB_eq, sum_eq_single j]
  · rw [sum_eq_single i]
    · simp [sideVector]
    · intro k _ hk
      simp [sideVector, hk]
    · intro h
      exact absurd (mem_range.2 hi) h
  · intro k _ hk
    exact sum_eq_zero fun m _ => by simp [sideVector, hk]
  · intro h
    exact absurd (mem_range.2 hj) h

theorem refScale_eq (dim : Nat) : refScale dim = 4/4^dim := by
  unfold refScale
  have h2 : (2:ℝ)^dim ≠ 0 := by positivity
  have h4 : (4:ℝ)^dim = 2^dim*2^dim := by rw [← mul_pow]; norm_num
  rw [h4, one_div, inv_pow]
  field_simp
  norm_num

/-- The entries of the matrix of a corner. -/
theorem pullback_apply {n : Nat} {K D Kinv : Nat → ℝ} {J : ℝ} (h : pullback n K D J = .ok Kinv)
    {i j : Nat} (hi : i < n) (hj : j < n) :
    (J • (toMatrix n D*toMatrix n K*(toMatrix n D).transpose)).det ≠ 0 ∧
    Kinv (i*n + j) = entry (J • (toMatrix n D*toMatrix n K*(toMatrix n D).transpose))⁻¹ j i := by
  unfold pullback at h
  dsimp only at h
  split at h
  · exact absurd h (by simp)
  · rename_i hd
    rw [Res.ok.injEq] at h
    refine ⟨hd, ?_⟩
    rw [← h, entry, dif_pos ⟨hj, hi⟩]
    exact congrFun (congrFun (toMatrix_ofMatrix
      (J • (toMatrix n D*toMatrix n K*(toMatrix n D).transpose))⁻¹.transpose) ⟨i, hi⟩) ⟨j, hj⟩

/-- After the element loop: the corner matrices and the sources. -/
def LocalIs (w : Wy) (K : Nat → Nat → ℝ) (l : Local) (c : Nat) : Prop :=
  (∀ q < w.nq, 0 ≤ w.J c q ∧
    (0 < w.dim → (w.J c q • (toMatrix w.dim (w.DFinv c q)*toMatrix w.dim (K c)
      *(toMatrix w.dim (w.DFinv c q)).transpose)).det ≠ 0) ∧
    ∀ i < w.dim, ∀ j < w.dim, l.A c q (i*w.dim + j) = cornerMass w K c q i j)
  ∧ l.F c = if w.hasForcing then ∑ q ∈ range w.nq, w.force c q*w.J c q else 0

theorem localPoint_ok {w : Wy} {K : Nat → Nat → ℝ} {c q : Nat} {l l' : Local}
    (h : localPoint w K c q l = .ok l') :
    0 ≤ w.J c q ∧ (0 < w.dim → (w.J c q • (toMatrix w.dim (w.DFinv c q)*toMatrix w.dim (K c)
      *(toMatrix w.dim (w.DFinv c q)).transpose)).det ≠ 0)
    ∧ (∀ i < w.dim, ∀ j < w.dim, l'.A c q (i*w.dim + j) = cornerMass w K c q i j)
    ∧ (∀ c' q', (c' ≠ c ∨ q' ≠ q) → l'.A c' q' = l.A c' q')
    ∧ l'.F c = l.F c + (if w.hasForcing then w.force c q*w.J c q else 0)
    ∧ ∀ c', c' ≠ c → l'.F c' = l.F c' := by
  unfold localPoint at h
  split at h
  · exact absurd h (by simp)
  · rename_i hJ
    cases hp : pullback w.dim (K c) (w.DFinv c q) (w.J c q) with
    | ok Kinv =>
      rw [hp] at h
      dsimp only at h
      rw [Res.ok.injEq] at h
      subst h
      refine ⟨not_lt.1 hJ, fun hd => (pullback_apply hp hd hd).1, fun i hi j hj => ?_, ?_, ?_, ?_⟩
      · show wr l.A c (wr (l.A c) q _) c q _ = _
        rw [wr_same, wr_same, fill_square w.dim _ _ j hj i hi, side_form _ _ _ hj hi,
          (pullback_apply hp hj hi).2, refScale_eq]
        unfold cornerMass
        ring
      · intro c' q' hne
        show wr l.A c (wr (l.A c) q _) c' q' = _
        by_cases hc : c' = c
        · subst hc
          rw [wr_same, wr_other]
          exact hne.resolve_left (fun h => h rfl)
        · rw [wr_other _ _ hc]
      · show (if w.hasForcing then addAt l.F c _ else l.F) c = _
        split
        · rw [addAt_apply, if_pos rfl]
        · rw [add_zero]
      · intro c' hc'
        show (if w.hasForcing then addAt l.F c _ else l.F) c' = _
        split
        · rw [addAt_apply, if_neg hc', add_zero]
        · rfl
    | err e => rw [hp] at h; exact absurd h (by simp)
    | ub => rw [hp] at h; exact absurd h (by simp)

theorem local_ok {w : Wy} {K : Nat → Nat → ℝ} {l l' : Local} (h : localElementCompute w K l = .ok l') :
    ∀ c < w.nCells, LocalIs w K l' c := by
  unfold localElementCompute at h
  refine forN_res w.nCells _ (fun m l => ∀ c < m, LocalIs w K l c) l l' (by simp) ?_ h
  intro c hc l l' hl hl'
  have key := forN_res w.nq (localPoint w K c) (fun m (t : Local) =>
    (∀ q < m, 0 ≤ w.J c q ∧ (0 < w.dim → (w.J c q • (toMatrix w.dim (w.DFinv c q)*toMatrix w.dim (K c)
      *(toMatrix w.dim (w.DFinv c q)).transpose)).det ≠ 0) ∧
      ∀ i < w.dim, ∀ j < w.dim, t.A c q (i*w.dim + j) = cornerMass w K c q i j)
    ∧ t.F c = (if w.hasForcing then ∑ q ∈ range m, w.force c q*w.J c q else 0)
    ∧ (∀ c' ≠ c, t.A c' = l.A c') ∧ ∀ c' ≠ c, t.F c' = l.F c')
    ⟨l.A, wr l.F c 0⟩ l' ?_ ?_ hl'
  · intro c' hc'
    by_cases hcc : c' = c
    · subst hcc
      exact ⟨key.1, key.2.1⟩
    · have := hl c' (by omega)
      unfold LocalIs at this ⊢
      rw [key.2.2.1 c' hcc, key.2.2.2 c' hcc]
      exact this
  · refine ⟨by simp, ?_, fun _ _ => rfl, fun c' hc' => wr_other _ _ hc'⟩
    simp [wr_same]
  · rintro q hq t t' ⟨h1, h2, h3, h4⟩ ht
    obtain ⟨g0, g1, g2, g3, g4, g5⟩ := localPoint_ok ht
    refine ⟨fun q' hq' => ?_, ?_, fun c' hc' => ?_, fun c' hc' => ?_⟩
    · by_cases hqq : q' = q
      · subst hqq
        exact ⟨g0, g1, g2⟩
      · have := h1 q' (by omega)
        refine ⟨this.1, this.2.1, ?_⟩
        rw [g3 c q' (.inr hqq)]
        exact this.2.2
    · rw [g4, h2]
      split
      · rw [sum_range_succ]
      · rw [add_zero]
    · rw [← h3 c' hc']
      funext q'
      exact g3 c' q' (.inl hc')
    · rw [g5 c' hc', h4 c' hc']

end

end TDy.Fe.Proofs
