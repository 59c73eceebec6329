import Verif.Proofs.WyVelocity

/-!
# The assembled system of the WY method
-/

namespace TDy.Fe.Proofs

open TDy.Fe TDy.Fe.Spec Finset
open TDy.Fvtpf (addAt addMat)
open TDy.Fvtpf.Proofs (addAt_apply addMat_apply)

noncomputable section

theorem row_num {w : Wy} {num : Nat → Nat} (h : GlobalNumbers w num) {c : Nat} (hc : c < w.nCells) :
    w.row c = num c := by
  unfold Wy.row
  rcases h.enc c hc with e | e <;> rw [e]
  · rw [if_neg (by omega)]; omega
  · rw [if_pos (by omega)]; omega

theorem row_inj {w : Wy} {num : Nat → Nat} (h : GlobalNumbers w num) :
    ∀ c < w.nCells, ∀ c' < w.nCells, w.row c = w.row c' → c = c' := by
  intro c hc c' hc' e
  rw [row_num h hc, row_num h hc'] at e
  exact h.inj c hc c' hc' e

theorem insert_K (w : Wy) (cells : List Nat) (C : Nat → Nat → ℝ) (D : Nat → ℝ) (s : Sys) (a b : Nat) :
    (insertStencil w cells C D s).K a b = s.K a b + ∑ c ∈ range cells.length,
      if 0 ≤ w.global (cells.getD c 0) then ∑ q ∈ range cells.length,
        if |C c q| < w.tol*maxAbs cells.length C then 0
        else if a = w.row (cells.getD c 0) ∧ b = w.row (cells.getD q 0) then C c q else 0 else 0 := by
  unfold insertStencil
  refine forN_adds (fun s : Sys => s.K a b) _ _ _ _ (fun c _ s => ?_)
  dsimp only
  by_cases hg : w.global (cells.getD c 0) < 0
  · rw [if_pos hg, if_neg (by omega), add_zero]
  · rw [if_neg hg, if_pos (by omega)]
    refine forN_adds (fun s : Sys => s.K a b) _ _ _ _ (fun q _ s => ?_)
    by_cases ht : |C c q| < w.tol*maxAbs cells.length C
    · rw [if_pos ht, if_pos ht, add_zero]
    · rw [if_neg ht, if_neg ht]
      exact addMat_apply _ _ _ _ _ _

theorem insert_F (w : Wy) (cells : List Nat) (C : Nat → Nat → ℝ) (D : Nat → ℝ) (s : Sys) (a : Nat) :
    (insertStencil w cells C D s).F a = s.F a + ∑ c ∈ range cells.length,
      if 0 ≤ w.global (cells.getD c 0) then (if a = w.row (cells.getD c 0) then D c else 0) else 0 := by
  unfold insertStencil
  refine forN_adds (fun s : Sys => s.F a) _ _ _ _ (fun c _ s => ?_)
  dsimp only
  by_cases hg : w.global (cells.getD c 0) < 0
  · rw [if_pos hg, if_neg (by omega), add_zero]
  · rw [if_neg hg, if_pos (by omega)]
    rw [forN_adds (fun s : Sys => s.F a) (fun _ => 0) _ _ _ (fun q _ s => by
      by_cases ht : |C c q| < w.tol*maxAbs cells.length C
      · rw [if_pos ht, add_zero]
      · rw [if_neg ht, add_zero]), sum_const_zero, add_zero]
    exact addAt_apply _ _ _ _

/-- A step of the loop over the vertices that succeeds: the inverse of the matrix of the vertex. -/
theorem stencil_ok {w : Wy} {v : Nat} {cor : Nat → Nat} (h : Star w v cor) {Al : Nat → Nat → Nat → ℝ}
    {s s' : Sys} (hok : systemVertex w Al v s = .ok s') :
    (mat (w.faces v).length (w.faces v).length (aMat w Al v cor)).det ≠ 0
    ∧ s' = insertStencil w (w.cells v)
      (entry ((mat (w.faces v).length (w.cells v).length (bMat w v cor)).transpose
        *(mat (w.faces v).length (w.faces v).length (aMat w Al v cor))⁻¹
        *mat (w.faces v).length (w.cells v).length (bMat w v cor)))
      (entry1 (((mat (w.faces v).length (w.cells v).length (bMat w v cor)).transpose
        *(mat (w.faces v).length (w.faces v).length (aMat w Al v cor))⁻¹).mulVec
          (vec (w.faces v).length (gVec w v cor)))) s := by
  unfold systemVertex at hok
  by_cases hs : tooLarge w v
  · unfold vertexSystem at hok
    rw [if_pos hs] at hok
    cases hdb : w.debug <;> simp [hdb] at hok
  · obtain ⟨t, ht, hA, hB, hG⟩ := system_closed h Al hs
    rw [ht] at hok
    dsimp only at hok
    have hA' : t.A = aMat w Al v cor := by funext r k; exact hA r k
    have hB' : t.B = bMat w v cor := by funext r k; exact hB r k
    have hG' : t.G = gVec w v cor := by funext r; exact hG r
    unfold formStencil at hok
    rw [hA', hB', hG'] at hok
    dsimp only at hok
    by_cases hd : (mat (w.faces v).length (w.faces v).length (aMat w Al v cor)).det = 0
    · rw [if_pos hd] at hok
      exact absurd hok (by simp)
    · rw [if_neg hd] at hok
      dsimp only at hok
      rw [Res.ok.injEq] at hok
      exact ⟨hd, hok.symm⟩

theorem forcing_K (w : Wy) (Fl : Nat → ℝ) (s : Sys) : (systemForcing w Fl s).K = s.K := by
  unfold systemForcing
  refine forN_invariant _ _ s (fun _ (t : Sys) => t.K = s.K) rfl ?_
  intro c t _ ht
  split <;> exact ht

theorem forcing_F (w : Wy) (Fl : Nat → ℝ) (s : Sys) (a : Nat) : (systemForcing w Fl s).F a = s.F a
    + ∑ c ∈ range w.nCells, if 0 ≤ w.global c then (if a = w.row c then Fl c else 0) else 0 := by
  unfold systemForcing
  refine forN_adds (fun s : Sys => s.F a) _ _ _ _ (fun c _ s => ?_)
  by_cases hg : w.global c < 0
  · rw [if_pos hg, if_neg (by omega), add_zero]
  · rw [if_neg hg, if_pos (by omega)]
    exact addAt_apply _ _ _ _

/-- The parts of the whole computation. -/
theorem system_parts {w : Wy} {K : Nat → Nat → ℝ} {l l' : Local} {s s' : Sys}
    (hok : wyComputeSystem w K l s = .ok (l', s')) :
    localElementCompute w K l = .ok l' ∧ ∃ t,
      forN (w.vEnd - w.vStart) (fun k (r : Res Sys) => r.bind (systemVertex w l'.A (w.vStart + k)))
        (.ok s) = .ok t ∧ s' = systemForcing w l'.F t := by
  unfold wyComputeSystem at hok
  cases hl : localElementCompute w K l with
  | ok l1 =>
    rw [hl] at hok
    dsimp only at hok
    cases hv : forN (w.vEnd - w.vStart) (fun k (r : Res Sys) =>
        r.bind (systemVertex w l1.A (w.vStart + k))) (.ok s) with
    | ok t =>
      rw [hv] at hok
      dsimp only at hok
      rw [Res.ok.injEq, Prod.mk.injEq] at hok
      obtain ⟨rfl, rfl⟩ := hok
      exact ⟨rfl, t, hv, rfl⟩
    | err t => rw [hv] at hok; exact absurd hok (by simp)
    | ub => rw [hv] at hok; exact absurd hok (by simp)
  | err l1 => rw [hl] at hok; exact absurd hok (by simp)
  | ub => rw [hl] at hok; exact absurd hok (by simp)

/-! ### Symmetry -/

theorem cornerMass_symm {w : Wy} {K : Nat → Nat → ℝ} {c : Nat} (hK : (toMatrix w.dim (K c)).IsSymm)
    (q i j : Nat) : cornerMass w K c q i j = cornerMass w K c q j i := by
  unfold cornerMass
  have hs : (w.J c q • (toMatrix w.dim (w.DFinv c q)*toMatrix w.dim (K c)
      *(toMatrix w.dim (w.DFinv c q)).transpose)).IsSymm := by
    unfold Matrix.IsSymm
    rw [Matrix.transpose_smul, Matrix.transpose_mul, Matrix.transpose_mul, Matrix.transpose_transpose,
      hK.eq, Matrix.mul_assoc]
  have he : ∀ i j, entry (w.J c q • (toMatrix w.dim (w.DFinv c q)*toMatrix w.dim (K c)
      *(toMatrix w.dim (w.DFinv c q)).transpose))⁻¹ i j
      = entry (w.J c q • (toMatrix w.dim (w.DFinv c q)*toMatrix w.dim (K c)
      *(toMatrix w.dim (w.DFinv c q)).transpose))⁻¹ j i := by
    intro i j
    unfold entry
    by_cases hij : i < w.dim ∧ j < w.dim
    · rw [dif_pos hij, dif_pos hij.symm]
      have : ((w.J c q • (toMatrix w.dim (w.DFinv c q)*toMatrix w.dim (K c)
        *(toMatrix w.dim (w.DFinv c q)).transpose))⁻¹).IsSymm := hs.inv
      exact this.apply _ _
    · rw [dif_neg hij, dif_neg (fun h => hij h.symm)]
  rw [he i j]
  ring

theorem aMat_symm {w : Wy} {v : Nat} {cor : Nat → Nat} (h : Star w v cor) {K : Nat → Nat → ℝ} {l : Local}
    (hl : ∀ c < w.nCells, LocalIs w K l c) (hK : ∀ c < w.nCells, (toMatrix w.dim (K c)).IsSymm)
    (r k : Nat) : aMat w l.A v cor r k = aMat w l.A v cor k r := by
  unfold aMat
  refine sum_congr rfl fun c hc => ?_
  rw [sum_comm]
  refine sum_congr rfl fun i hi => sum_congr rfl fun j hj => ?_
  have hc' := List.mem_toFinset.1 hc
  have hA := ((hl c (cells_lt hc')).1 (cor c) (h.cor_lt c hc')).2.2
  have : aTerm w l.A cor c j i = aTerm w l.A cor c i j := by
    unfold aTerm
    rw [hA j (mem_range.1 hj) i (mem_range.1 hi), hA i (mem_range.1 hi) j (mem_range.1 hj),
      cornerMass_symm (hK c (cells_lt hc')) _ j i]
    ring
  rw [this]
  refine if_congr ?_ rfl rfl
  tauto

theorem stencil_symm {q r : Nat} {A : Nat → Nat → ℝ} (B : Nat → Nat → ℝ) (hA : ∀ i j, A i j = A j i)
    (i j : Nat) : entry ((mat q r B).transpose*(mat q q A)⁻¹*mat q r B) i j
      = entry ((mat q r B).transpose*(mat q q A)⁻¹*mat q r B) j i := by
  have hs : (mat q q A).IsSymm := by
    unfold Matrix.IsSymm
    ext i j
    exact hA j i
  have hC : ((mat q r B).transpose*(mat q q A)⁻¹*mat q r B).IsSymm := by
    have hi : ((mat q q A)⁻¹).IsSymm := hs.inv
    unfold Matrix.IsSymm
    rw [Matrix.transpose_mul, Matrix.transpose_mul, Matrix.transpose_transpose, hi.eq, Matrix.mul_assoc]
  unfold entry
  by_cases hij : i < r ∧ j < r
  · rw [dif_pos hij, dif_pos hij.symm]
    exact hC.apply _ _
  · rw [dif_neg hij, dif_neg (fun h => hij h.symm)]

end

end TDy.Fe.Proofs
