import Verif.Proofs.WyLocal

/-!
# The velocities of the WY method
-/

namespace TDy.Fe.Proofs

open TDy.Fe TDy.Fe.Spec Finset

noncomputable section

theorem cells_lt {w : Wy} {v c : Nat} (h : c ∈ w.cells v) : c < w.nCells := by
  have := (List.mem_filter.1 h).2
  simpa using this

theorem getD_lt (l : List Nat) {i : Nat} (h : i < l.length) : l.getD i 0 = l[i] := by
  simp [List.getD, h]

theorem Fi_lt {w : Wy} {v f : Nat} (h : f ∈ w.faces v) : Fi w v f < (w.faces v).length :=
  List.idxOf_lt_length_iff.2 h

theorem Fi_eq {w : Wy} {v f f' : Nat} (hf : f ∈ w.faces v) : Fi w v f = Fi w v f' ↔ f = f' :=
  ⟨Fi_inj hf, fun h => h ▸ rfl⟩

/-- Sums over the places of faces. -/
theorem sum_places {n k : Nat} (hk : k < n) (a : ℝ) (x : Nat → ℝ) :
    ∑ m ∈ range n, (if m = k then a else 0)*x m = a*x k := by
  rw [sum_eq_single k]
  · rw [if_pos rfl]
  · intro m _ hm
    rw [if_neg hm, zero_mul]
  · intro h
    exact absurd (mem_range.2 hk) h

theorem aMat_mul {w : Wy} {v : Nat} {cor : Nat → Nat} (h : Star w v cor) (Al : Nat → Nat → Nat → ℝ)
    (x : Nat → ℝ) (r : Nat) :
    ∑ k ∈ range (w.faces v).length, aMat w Al v cor r k*x k
      = ∑ c ∈ (w.cells v).toFinset, ∑ i ∈ range w.dim, if r = Fi w v (w.face c (cor c) i) then
        ∑ j ∈ range w.dim, aTerm w Al cor c i j*x (Fi w v (w.face c (cor c) j)) else 0 := by
  unfold aMat
  simp only [sum_mul]
  rw [sum_comm]
  refine sum_congr rfl fun c hc => ?_
  rw [sum_comm]
  refine sum_congr rfl fun i hi => ?_
  rw [sum_comm]
  have hc' := List.mem_toFinset.1 hc
  by_cases hr : r = Fi w v (w.face c (cor c) i)
  · rw [if_pos hr]
    refine sum_congr rfl fun j hj => ?_
    rw [← sum_places (Fi_lt (h.face_mem c hc' j (mem_range.1 hj)))]
    refine sum_congr rfl fun k _ => ?_
    by_cases hk : k = Fi w v (w.face c (cor c) j)
    · rw [if_pos ⟨hr, hk⟩, if_pos hk]
    · rw [if_neg (fun h => hk h.2), if_neg hk]
  · rw [if_neg hr]
    refine sum_eq_zero fun j _ => sum_eq_zero fun k _ => ?_
    rw [if_neg (fun h => hr h.1), zero_mul]

theorem entry1_apply {n : Nat} (x : Fin n → ℝ) (i : Fin n) : entry1 x i = x i := by
  unfold entry1
  rw [dif_pos i.2]

/-- A step of the loop over the vertices that succeeds solves the system of the vertex. -/
theorem vertex_solve {w : Wy} {v : Nat} {cor : Nat → Nat} (h : Star w v cor) {Al : Nat → Nat → Nat → ℝ}
    {u : Nat → ℝ} {vel vel' : Nat → Nat → ℝ} (hok : velocityVertex w Al u v vel = .ok vel') :
    ∃ y : Nat → ℝ, vel' = storeVelocity w v y vel
      ∧ (∀ r < (w.faces v).length, ∑ k ∈ range (w.faces v).length, aMat w Al v cor r k*y k
        = fVec w u v cor r)
      ∧ ((∀ r < (w.faces v).length, fVec w u v cor r = 0) → ∀ r, y r = 0) := by
  unfold velocityVertex at hok
  by_cases hs : 144 < (w.faces v).length*(w.faces v).length
  · unfold vertexVelocity at hok
    rw [if_pos hs] at hok
    exact absurd hok (by simp)
  · obtain ⟨t, ht, hA, hF⟩ := velocity_closed h Al u hs
    rw [ht] at hok
    dsimp only at hok
    unfold recoverVelocity at hok
    dsimp only at hok
    by_cases hd : (mat (w.faces v).length (w.faces v).length t.A).det = 0
    · rw [if_pos hd] at hok
      exact absurd hok (by simp)
    · rw [if_neg hd] at hok
      dsimp only at hok
      rw [Res.ok.injEq] at hok
      refine ⟨_, hok.symm, fun r hr => ?_, fun h0 r => ?_⟩
      · have hm := congrFun (Matrix.mulVec_mulVec (vec (w.faces v).length t.F)
          (mat (w.faces v).length (w.faces v).length t.A)
          (mat (w.faces v).length (w.faces v).length t.A)⁻¹) ⟨r, hr⟩
        rw [Matrix.mul_nonsing_inv _ (isUnit_iff_ne_zero.2 hd), Matrix.one_mulVec] at hm
        rw [← hF r, show t.F r = vec (w.faces v).length t.F ⟨r, hr⟩ from rfl, ← hm, Matrix.mulVec,
          dotProduct, ← Fin.sum_univ_eq_sum_range (fun k => aMat w Al v cor r k*entry1 _ k)]
        refine sum_congr rfl fun k _ => ?_
        rw [entry1_apply, ← hA]
        rfl
      · have hv : vec (w.faces v).length t.F = 0 := by
          funext k
          show t.F k = 0
          rw [hF, h0 k k.2]
        rw [hv, Matrix.mulVec_zero]
        unfold entry1
        split <;> rfl

/-! ### The stored velocities -/

theorem store_other (w : Wy) (v : Nat) (y : Nat → ℝ) (vel : Nat → Nat → ℝ) {f k : Nat}
    (h : w.fmap f k ≠ v) : storeVelocity w v y vel f k = vel f k := by
  unfold storeVelocity
  refine forN_invariant _ _ vel (fun _ (t : Nat → Nat → ℝ) => t f k = vel f k) rfl ?_
  intro q t _ ht
  cases hf : (List.range w.nfv).find? fun k => v == w.fmap ((w.faces v).getD q 0) k with
  | none => exact ht
  | some m =>
    dsimp only
    have h1 := List.find?_some hf
    by_cases hff : f = (w.faces v).getD q 0
    · subst hff
      rw [wr_same, wr_other]
      · exact ht
      · intro hkm
        subst hkm
        exact h (beq_iff_eq.1 h1).symm
    · rw [wr_other _ _ hff]
      exact ht

theorem place_find {w : Wy} {f v k : Nat} (h : Place w f v k) :
    ((List.range w.nfv).find? fun k => v == w.fmap f k) = some k :=
  find_range _ _ _ h.1 (by rw [h.2.1]; exact beq_self_eq_true v)
    (fun q hq hp => h.2.2 q hq (beq_iff_eq.1 hp).symm)

theorem store_same {w : Wy} {v : Nat} (hn : (w.faces v).Nodup) (y : Nat → ℝ) (vel : Nat → Nat → ℝ)
    {f k : Nat} (hf : f ∈ w.faces v) (hk : Place w f v k) :
    storeVelocity w v y vel f k = y (Fi w v f) := by
  have hlt := Fi_lt hf
  have hget : (w.faces v).getD (Fi w v f) 0 = f := by
    rw [getD_lt _ hlt]
    exact List.getElem_idxOf hlt
  unfold storeVelocity
  refine forN_invariant (w.faces v).length _ vel
    (fun m (t : Nat → Nat → ℝ) => Fi w v f < m → t f k = y (Fi w v f)) (by omega) ?_ hlt
  intro q t hq ht hlt'
  by_cases hqe : q = Fi w v f
  · subst hqe
    rw [hget, place_find hk]
    dsimp only
    rw [wr_same, wr_same]
  · have hne : f ≠ (w.faces v).getD q 0 := by
      intro he
      apply hqe
      unfold Fi
      rw [he, getD_lt _ hq, hn.idxOf_getElem]
    have htf := ht (by omega)
    cases (List.range w.nfv).find? fun k => v == w.fmap ((w.faces v).getD q 0) k with
    | none => exact htf
    | some m =>
      dsimp only
      rw [wr_other _ _ hne]
      exact htf

/-- The velocities at every vertex solve the system of that vertex. -/
theorem recover_ok {w : Wy} {cor : Nat → Nat → Nat} {pl : Nat → Nat → Nat}
    (hstar : ∀ v, w.vStart ≤ v → v < w.vEnd → Star w v (cor v))
    (hpl : ∀ v, w.vStart ≤ v → v < w.vEnd → ∀ f ∈ w.faces v, Place w f v (pl f v))
    {Al : Nat → Nat → Nat → ℝ} {u : Nat → ℝ} {vel vel' : Nat → Nat → ℝ}
    (hok : wyRecoverVelocity w Al u vel = .ok vel') :
    ∀ v, w.vStart ≤ v → v < w.vEnd → ∃ y : Nat → ℝ,
      (∀ f ∈ w.faces v, vel' f (pl f v) = y (Fi w v f))
      ∧ (∀ r < (w.faces v).length, ∑ k ∈ range (w.faces v).length, aMat w Al v (cor v) r k*y k
        = fVec w u v (cor v) r)
      ∧ ((∀ r < (w.faces v).length, fVec w u v (cor v) r = 0) → ∀ r, y r = 0) := by
  suffices h : ∀ k < w.vEnd - w.vStart, ∃ y : Nat → ℝ,
      (∀ f ∈ w.faces (w.vStart + k), vel' f (pl f (w.vStart + k)) = y (Fi w (w.vStart + k) f))
      ∧ (∀ r < (w.faces (w.vStart + k)).length, ∑ m ∈ range (w.faces (w.vStart + k)).length,
          aMat w Al (w.vStart + k) (cor (w.vStart + k)) r m*y m
        = fVec w u (w.vStart + k) (cor (w.vStart + k)) r)
      ∧ ((∀ r < (w.faces (w.vStart + k)).length, fVec w u (w.vStart + k) (cor (w.vStart + k)) r = 0)
        → ∀ r, y r = 0) by
    intro v h1 h2
    have := h (v - w.vStart) (by omega)
    rwa [Nat.add_sub_cancel' h1] at this
  refine forN_res (w.vEnd - w.vStart) (fun k => velocityVertex w Al u (w.vStart + k))
    (fun m (t : Nat → Nat → ℝ) => ∀ k < m, ∃ y : Nat → ℝ,
      (∀ f ∈ w.faces (w.vStart + k), t f (pl f (w.vStart + k)) = y (Fi w (w.vStart + k) f))
      ∧ (∀ r < (w.faces (w.vStart + k)).length, ∑ m ∈ range (w.faces (w.vStart + k)).length,
          aMat w Al (w.vStart + k) (cor (w.vStart + k)) r m*y m
        = fVec w u (w.vStart + k) (cor (w.vStart + k)) r)
      ∧ ((∀ r < (w.faces (w.vStart + k)).length, fVec w u (w.vStart + k) (cor (w.vStart + k)) r = 0)
        → ∀ r, y r = 0)) vel vel' (by simp) ?_ hok
  intro m hm t t' ht hstep k hk
  obtain ⟨y, rfl, hy, hz⟩ := vertex_solve (hstar (w.vStart + m) (by omega) (by omega)) hstep
  by_cases hkm : k = m
  · subst hkm
    refine ⟨y, fun f hf => ?_, hy, hz⟩
    exact store_same (hstar _ (by omega) (by omega)).faces_nodup y t hf
      (hpl _ (by omega) (by omega) f hf)
  · obtain ⟨y', hf', hy', hz'⟩ := ht k (by omega)
    refine ⟨y', fun f hf => ?_, hy', hz'⟩
    rw [store_other, hf' f hf]
    rw [(hpl (w.vStart + k) (by omega) (by omega) f hf).2.1]
    omega

end

end TDy.Fe.Proofs
