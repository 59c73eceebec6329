import Verif.Proofs.WySystem

/-!
# The residual of the WY method and its assembled system
-/

namespace TDy.Fe.Proofs

open TDy.Fe TDy.Fe.Spec Finset

noncomputable section

theorem Ci_lt {w : Wy} {v c : Nat} (h : c ∈ w.cells v) : Ci w v c < (w.cells v).length :=
  List.idxOf_lt_length_iff.2 h

theorem Ci_get {w : Wy} {v c : Nat} (h : c ∈ w.cells v) : (w.cells v).getD (Ci w v c) 0 = c := by
  rw [getD_lt _ (Ci_lt h)]
  exact List.getElem_idxOf (Ci_lt h)

theorem Ci_eq {w : Wy} {v c c' : Nat} (hc : c ∈ w.cells v) : Ci w v c = Ci w v c' ↔ c = c' :=
  ⟨fun h => (List.idxOf_inj hc).1 h, fun h => h ▸ rfl⟩

/-- Sums over the cells of a vertex, by place and by cell. -/
theorem sum_cells_places {w : Wy} {v : Nat} (hn : (w.cells v).Nodup) (g : Nat → ℝ) :
    ∑ q ∈ range (w.cells v).length, g ((w.cells v).getD q 0) = ∑ c ∈ (w.cells v).toFinset, g c := by
  refine sum_bij (fun q _ => (w.cells v).getD q 0) ?_ ?_ ?_ ?_
  · intro q hq
    rw [getD_lt _ (mem_range.1 hq)]
    exact List.mem_toFinset.2 (List.getElem_mem _)
  · intro q hq q' hq' h
    rw [getD_lt _ (mem_range.1 hq), getD_lt _ (mem_range.1 hq')] at h
    exact (hn.getElem_inj_iff).1 h
  · intro c hc
    have hc' := List.mem_toFinset.1 hc
    exact ⟨Ci w v c, mem_range.2 (Ci_lt hc'), Ci_get hc'⟩
  · intro q _
    rfl

theorem bMat_col {w : Wy} {v : Nat} {cor : Nat → Nat} {c : Nat} (hc : c ∈ w.cells v) (r : Nat) :
    bMat w v cor r (Ci w v c) = ∑ i ∈ range w.dim,
      if r = Fi w v (w.face c (cor c) i) then bTerm w cor c i else 0 := by
  unfold bMat
  rw [sum_eq_single c]
  · refine sum_congr rfl fun i _ => ?_
    simp
  · intro c' hc' hne
    refine sum_eq_zero fun i _ => if_neg ?_
    rintro ⟨_, h⟩
    exact hne ((Ci_eq hc).1 h).symm
  · intro h
    exact absurd (List.mem_toFinset.2 hc) h

/-- `B p` at a face. -/
theorem bMat_mul {w : Wy} {v : Nat} {cor : Nat → Nat} (h : Star w v cor) (u : Nat → ℝ) (r : Nat) :
    ∑ k ∈ range (w.cells v).length, bMat w v cor r k*u ((w.cells v).getD k 0)
      = ∑ c ∈ (w.cells v).toFinset, ∑ i ∈ range w.dim,
        if r = Fi w v (w.face c (cor c) i) then bTerm w cor c i*u c else 0 := by
  have : ∀ k ∈ range (w.cells v).length, bMat w v cor r k*u ((w.cells v).getD k 0)
      = (fun c => bMat w v cor r (Ci w v c)*u c) ((w.cells v).getD k 0) := by
    intro k hk
    have hk' := mem_range.1 hk
    dsimp only
    rw [getD_lt _ hk']
    unfold Ci
    rw [h.cells_nodup.idxOf_getElem]
  rw [sum_congr rfl this, sum_cells_places h.cells_nodup (fun c => bMat w v cor r (Ci w v c)*u c)]
  refine sum_congr rfl fun c hc => ?_
  rw [bMat_col (List.mem_toFinset.1 hc), sum_mul]
  refine sum_congr rfl fun i _ => ?_
  rw [ite_mul, zero_mul]

/-- At a vertex, stencil times pressures less the given values is the outflow of the recovered
velocities. -/
theorem balance_vertex {w : Wy} {v : Nat} {cor : Nat → Nat} (h : Star w v cor)
    {Al : Nat → Nat → Nat → ℝ} {u y : Nat → ℝ}
    (hd : (mat (w.faces v).length (w.faces v).length (aMat w Al v cor)).det ≠ 0)
    (hy : ∀ r < (w.faces v).length, ∑ k ∈ range (w.faces v).length, aMat w Al v cor r k*y k
        = fVec w u v cor r) {c : Nat} (hc : c ∈ w.cells v) :
    (∑ q ∈ range (w.cells v).length,
      entry ((mat (w.faces v).length (w.cells v).length (bMat w v cor)).transpose
        *(mat (w.faces v).length (w.faces v).length (aMat w Al v cor))⁻¹
        *mat (w.faces v).length (w.cells v).length (bMat w v cor)) (Ci w v c) q
      *u ((w.cells v).getD q 0))
      - entry1 (((mat (w.faces v).length (w.cells v).length (bMat w v cor)).transpose
        *(mat (w.faces v).length (w.faces v).length (aMat w Al v cor))⁻¹).mulVec
          (vec (w.faces v).length (gVec w v cor))) (Ci w v c)
    = ∑ i ∈ range w.dim, bTerm w cor c i*y (Fi w v (w.face c (cor c) i)) := by
  set A := mat (w.faces v).length (w.faces v).length (aMat w Al v cor) with hA
  set B := mat (w.faces v).length (w.cells v).length (bMat w v cor) with hB
  set p : Fin (w.cells v).length → ℝ := fun k => u ((w.cells v).getD k 0) with hp
  set k : Fin (w.cells v).length := ⟨Ci w v c, Ci_lt hc⟩ with hk
  have h1 : ∑ q ∈ range (w.cells v).length, entry (B.transpose*A⁻¹*B) (Ci w v c) q*u ((w.cells v).getD q 0)
      = (B.transpose*A⁻¹*B).mulVec p k := by
    rw [← Fin.sum_univ_eq_sum_range (fun q => entry (B.transpose*A⁻¹*B) (Ci w v c) q
      *u ((w.cells v).getD q 0)), Matrix.mulVec, dotProduct]
    refine sum_congr rfl fun q _ => ?_
    rw [entry, dif_pos ⟨Ci_lt hc, q.2⟩]
  have h2 : ∀ x : Fin (w.cells v).length → ℝ, entry1 x (Ci w v c) = x k := fun x => entry1_apply x k
  have hf : B.mulVec p - vec (w.faces v).length (gVec w v cor) = A.mulVec (vec (w.faces v).length y) := by
    funext r
    have e1 : B.mulVec p r = ∑ k ∈ range (w.cells v).length, bMat w v cor r k*u ((w.cells v).getD k 0) := by
      rw [← Fin.sum_univ_eq_sum_range (fun k => bMat w v cor r k*u ((w.cells v).getD k 0))]
      rfl
    have e2 : A.mulVec (vec (w.faces v).length y) r
        = ∑ k ∈ range (w.faces v).length, aMat w Al v cor r k*y k := by
      rw [← Fin.sum_univ_eq_sum_range (fun k => aMat w Al v cor r k*y k)]
      rfl
    rw [Pi.sub_apply, e1, e2, hy r r.2, bMat_mul h]
    rfl
  have h3 : (B.transpose*A⁻¹*B).mulVec p - (B.transpose*A⁻¹).mulVec (vec (w.faces v).length (gVec w v cor))
      = B.transpose.mulVec (vec (w.faces v).length y) := by
    rw [← Matrix.mulVec_mulVec p, ← Matrix.mulVec_sub, hf, Matrix.mulVec_mulVec, Matrix.mul_assoc,
      Matrix.nonsing_inv_mul _ (isUnit_iff_ne_zero.2 hd), Matrix.mul_one]
  have h4 := congrFun h3 k
  rw [Pi.sub_apply] at h4
  rw [h1, h2, h4]
  have h5 : B.transpose.mulVec (vec (w.faces v).length y) k
      = ∑ r ∈ range (w.faces v).length, bMat w v cor r (Ci w v c)*y r := by
    rw [← Fin.sum_univ_eq_sum_range (fun r => bMat w v cor r (Ci w v c)*y r)]
    rfl
  rw [h5]
  simp only [bMat_col hc, sum_mul]
  rw [sum_comm]
  refine sum_congr rfl fun i hi => ?_
  rw [sum_places (Fi_lt (h.face_mem c hc i (mem_range.1 hi)))]

/-! ### The rows of the assembled system -/

/-- The stencil of a vertex. -/
def cMat (w : Wy) (Al : Nat → Nat → Nat → ℝ) (v : Nat) (cor : Nat → Nat) : Nat → Nat → ℝ :=
  entry ((mat (w.faces v).length (w.cells v).length (bMat w v cor)).transpose
        *(mat (w.faces v).length (w.faces v).length (aMat w Al v cor))⁻¹
        *mat (w.faces v).length (w.cells v).length (bMat w v cor))

def dVec (w : Wy) (Al : Nat → Nat → Nat → ℝ) (v : Nat) (cor : Nat → Nat) : Nat → ℝ :=
  entry1 (((mat (w.faces v).length (w.cells v).length (bMat w v cor)).transpose
        *(mat (w.faces v).length (w.faces v).length (aMat w Al v cor))⁻¹).mulVec
          (vec (w.faces v).length (gVec w v cor)))

/-- What is left of an entry. -/
def kept (tol : ℝ) (n : Nat) (C : Nat → Nat → ℝ) (m q : Nat) : ℝ :=
  open Classical in if |C m q| < tol*maxAbs n C then 0 else C m q

/-- In the rows of the cells of this process, a stencil adds the kept entries. -/
theorem insert_row {w : Wy} {v : Nat} {cor : Nat → Nat} (h : Star w v cor)
    (hrow : ∀ c < w.nCells, ∀ c' < w.nCells, w.row c = w.row c' → c = c') (C : Nat → Nat → ℝ) (D : Nat → ℝ)
    (s : Sys) (u : Nat → ℝ) {c : Nat} (hc : c < w.nCells) (ho : 0 ≤ w.global c) :
    (∑ c' ∈ range w.nCells, (insertStencil w (w.cells v) C D s).K (w.row c) (w.row c')*u c')
      - (insertStencil w (w.cells v) C D s).F (w.row c)
    = ((∑ c' ∈ range w.nCells, s.K (w.row c) (w.row c')*u c') - s.F (w.row c))
      + if c ∈ w.cells v then (∑ q ∈ range (w.cells v).length,
          kept w.tol (w.cells v).length C (Ci w v c) q*u ((w.cells v).getD q 0)) - D (Ci w v c) else 0 := by
  have hin : ∀ m ∈ range (w.cells v).length, (w.cells v).getD m 0 < w.nCells := by
    intro m hm
    rw [getD_lt _ (mem_range.1 hm)]
    exact cells_lt (List.getElem_mem _)
  have hplace : ∀ m ∈ range (w.cells v).length, w.row c = w.row ((w.cells v).getD m 0) →
      c ∈ w.cells v ∧ m = Ci w v c := by
    intro m hm hr
    have hcm := hrow c hc _ (hin m hm) hr
    have hm' := mem_range.1 hm
    rw [getD_lt _ hm'] at hcm
    refine ⟨hcm ▸ List.getElem_mem hm', ?_⟩
    unfold Ci
    rw [hcm, h.cells_nodup.idxOf_getElem]
  by_cases hcv : c ∈ w.cells v
  · rw [if_pos hcv]
    have hget := Ci_get hcv
    have hmem : Ci w v c ∈ range (w.cells v).length := mem_range.2 (Ci_lt hcv)
    have hK : ∀ b, (insertStencil w (w.cells v) C D s).K (w.row c) b = s.K (w.row c) b
        + ∑ q ∈ range (w.cells v).length, if b = w.row ((w.cells v).getD q 0) then
          kept w.tol (w.cells v).length C (Ci w v c) q else 0 := by
      intro b
      rw [insert_K, sum_eq_single (Ci w v c)]
      · rw [hget, if_pos ho]
        congr 1
        refine sum_congr rfl fun q _ => ?_
        unfold kept
        split
        · split <;> rfl
        · refine if_congr ?_ rfl rfl
          simp
      · intro m hm hne
        split
        · refine sum_eq_zero fun q _ => ?_
          split
          · rfl
          · rw [if_neg]
            rintro ⟨hr, _⟩
            exact hne (hplace m hm hr).2
        · rfl
      · intro hn
        exact absurd hmem hn
    have hF : (insertStencil w (w.cells v) C D s).F (w.row c) = s.F (w.row c) + D (Ci w v c) := by
      rw [insert_F, sum_eq_single (Ci w v c)]
      · rw [hget, if_pos ho, if_pos rfl]
      · intro m hm hne
        split
        · rw [if_neg]
          intro hr
          exact hne (hplace m hm hr).2
        · rfl
      · intro hn
        exact absurd hmem hn
    rw [hF]
    simp only [hK, add_mul, sum_add_distrib, sum_mul]
    rw [sum_comm (s := range w.nCells)]
    have : ∀ q ∈ range (w.cells v).length, (∑ c' ∈ range w.nCells,
        (if w.row c' = w.row ((w.cells v).getD q 0) then
          kept w.tol (w.cells v).length C (Ci w v c) q else 0)*u c')
        = kept w.tol (w.cells v).length C (Ci w v c) q*u ((w.cells v).getD q 0) := by
      intro q hq
      rw [sum_eq_single ((w.cells v).getD q 0)]
      · rw [if_pos rfl]
      · intro c' hc' hne
        rw [if_neg, zero_mul]
        intro hr
        exact hne (hrow c' (mem_range.1 hc') _ (hin q hq) hr)
      · intro hn
        exact absurd (mem_range.2 (hin q hq)) hn
    rw [sum_congr rfl this]
    ring
  · rw [if_neg hcv, add_zero]
    have hK : ∀ b, (insertStencil w (w.cells v) C D s).K (w.row c) b = s.K (w.row c) b := by
      intro b
      rw [insert_K, sum_eq_zero, add_zero]
      intro m hm
      split
      · refine sum_eq_zero fun q _ => ?_
        split
        · rfl
        · rw [if_neg]
          rintro ⟨hr, _⟩
          exact hcv (hplace m hm hr).1
      · rfl
    have hF : (insertStencil w (w.cells v) C D s).F (w.row c) = s.F (w.row c) := by
      rw [insert_F, sum_eq_zero, add_zero]
      intro m hm
      split
      · rw [if_neg]
        intro hr
        exact hcv (hplace m hm hr).1
      · rfl
    simp only [hK, hF]

/-- The rows after all vertices. -/
theorem system_row {w : Wy} {cor : Nat → Nat → Nat} {Al : Nat → Nat → Nat → ℝ} {s t : Sys} (u : Nat → ℝ)
    (hstar : ∀ v, w.vStart ≤ v → v < w.vEnd → Star w v (cor v))
    (hrow : ∀ c < w.nCells, ∀ c' < w.nCells, w.row c = w.row c' → c = c')
    (ht : forN (w.vEnd - w.vStart) (fun k (r : Res Sys) => r.bind (systemVertex w Al (w.vStart + k)))
        (.ok s) = .ok t) {c : Nat} (hc : c < w.nCells) (ho : 0 ≤ w.global c) :
    (∀ v, w.vStart ≤ v → v < w.vEnd →
      (mat (w.faces v).length (w.faces v).length (aMat w Al v (cor v))).det ≠ 0) ∧
    (∑ c' ∈ range w.nCells, t.K (w.row c) (w.row c')*u c') - t.F (w.row c)
    = ((∑ c' ∈ range w.nCells, s.K (w.row c) (w.row c')*u c') - s.F (w.row c))
      + ∑ k ∈ range (w.vEnd - w.vStart), if c ∈ w.cells (w.vStart + k) then
        (∑ q ∈ range (w.cells (w.vStart + k)).length,
          kept w.tol (w.cells (w.vStart + k)).length (cMat w Al (w.vStart + k) (cor (w.vStart + k)))
            (Ci w (w.vStart + k) c) q*u ((w.cells (w.vStart + k)).getD q 0))
          - dVec w Al (w.vStart + k) (cor (w.vStart + k)) (Ci w (w.vStart + k) c) else 0 := by
  suffices hh : (∀ k < w.vEnd - w.vStart, (mat (w.faces (w.vStart + k)).length (w.faces (w.vStart + k)).length
      (aMat w Al (w.vStart + k) (cor (w.vStart + k)))).det ≠ 0) ∧
    (∑ c' ∈ range w.nCells, t.K (w.row c) (w.row c')*u c') - t.F (w.row c)
    = ((∑ c' ∈ range w.nCells, s.K (w.row c) (w.row c')*u c') - s.F (w.row c))
      + ∑ k ∈ range (w.vEnd - w.vStart), if c ∈ w.cells (w.vStart + k) then
        (∑ q ∈ range (w.cells (w.vStart + k)).length,
          kept w.tol (w.cells (w.vStart + k)).length (cMat w Al (w.vStart + k) (cor (w.vStart + k)))
            (Ci w (w.vStart + k) c) q*u ((w.cells (w.vStart + k)).getD q 0))
          - dVec w Al (w.vStart + k) (cor (w.vStart + k)) (Ci w (w.vStart + k) c) else 0 by
    refine ⟨fun v h1 h2 => ?_, hh.2⟩
    have := hh.1 (v - w.vStart) (by omega)
    rwa [Nat.add_sub_cancel' h1] at this
  refine forN_res _ (fun k => systemVertex w Al (w.vStart + k)) (fun m (t : Sys) =>
    (∀ k < m, (mat (w.faces (w.vStart + k)).length (w.faces (w.vStart + k)).length
      (aMat w Al (w.vStart + k) (cor (w.vStart + k)))).det ≠ 0) ∧
    (∑ c' ∈ range w.nCells, t.K (w.row c) (w.row c')*u c') - t.F (w.row c)
    = ((∑ c' ∈ range w.nCells, s.K (w.row c) (w.row c')*u c') - s.F (w.row c))
      + ∑ k ∈ range m, if c ∈ w.cells (w.vStart + k) then
        (∑ q ∈ range (w.cells (w.vStart + k)).length,
          kept w.tol (w.cells (w.vStart + k)).length (cMat w Al (w.vStart + k) (cor (w.vStart + k)))
            (Ci w (w.vStart + k) c) q*u ((w.cells (w.vStart + k)).getD q 0))
          - dVec w Al (w.vStart + k) (cor (w.vStart + k)) (Ci w (w.vStart + k) c) else 0) s t
    ⟨by simp, by simp⟩ ?_ ht
  rintro m hm t t' ⟨h1, h2⟩ hstep
  have hst := hstar (w.vStart + m) (by omega) (by omega)
  obtain ⟨hd, rfl⟩ := stencil_ok hst hstep
  refine ⟨fun k hk => ?_, ?_⟩
  · by_cases hkm : k = m
    · exact hkm ▸ hd
    · exact h1 k (by omega)
  · rw [insert_row hst hrow _ _ t u hc ho, h2, sum_range_succ, add_assoc]
    rfl

/-! ### The divergence -/

theorem divergence_eq (w : Wy) (vel : Nat → Nat → ℝ) {c : Nat} (hn : (w.cone c).Nodup) :
    wyDivergence w vel c = ∑ f ∈ (w.cone c).toFinset, ∑ j ∈ range w.nfv,
      w.outSign c f*vel f j*(1/(w.nfv : ℝ))*w.V f := by
  unfold wyDivergence
  rw [foldl_adds (fun x : ℝ => x) (fun f => ∑ j ∈ range w.nfv,
    w.outSign c f*vel f j*(1/(w.nfv : ℝ))*w.V f) (fun f div => forN w.nfv (fun j div => div
      + w.outSign c f*vel f j*(1/(w.nfv : ℝ))*w.V f) div) _ hn, zero_add]
  intro f _ s
  exact forN_adds (fun x : ℝ => x) _ _ _ _ (fun _ _ _ => rfl)

/-- The divergence, corner by corner. -/
theorem divergence_corners {w : Wy} {cor : Nat → Nat → Nat} {pl : Nat → Nat → Nat} {c : Nat}
    (hstar : ∀ v, w.vStart ≤ v → v < w.vEnd → Star w v (cor v))
    (hpl : ∀ v, w.vStart ≤ v → v < w.vEnd → ∀ f ∈ w.faces v, Place w f v (pl f v))
    (hm : CellMap w pl c) (vel : Nat → Nat → ℝ) :
    wyDivergence w vel c = ∑ q ∈ range w.nq, ∑ d ∈ range w.dim,
      wgt w*w.sign c q d*w.V (w.face c q d)*vel (w.face c q d) (pl (w.face c q d) (w.vmap c q)) := by
  have hcor : ∀ q < w.nq, cor (w.vmap c q) c = q := by
    intro q hq
    obtain ⟨h1, h2, h3⟩ := hm.vertex q hq
    exact ((hstar _ h1 h2).cor_only c h3 q hq rfl).symm
  have hmem : ∀ q < w.nq, ∀ d < w.dim, w.face c q d ∈ w.faces (w.vmap c q) := by
    intro q hq d hd
    obtain ⟨h1, h2, h3⟩ := hm.vertex q hq
    have := (hstar _ h1 h2).face_mem c h3 d hd
    rwa [hcor q hq] at this
  have hplace : ∀ q < w.nq, ∀ d < w.dim,
      Place w (w.face c q d) (w.vmap c q) (pl (w.face c q d) (w.vmap c q)) := by
    intro q hq d hd
    obtain ⟨h1, h2, h3⟩ := hm.vertex q hq
    exact hpl _ h1 h2 _ (hmem q hq d hd)
  rw [divergence_eq w vel hm.cone_nodup, ← sum_product', ← sum_product']
  symm
  refine sum_bij (fun (a : Nat × Nat) _ => (w.face c a.1 a.2, pl (w.face c a.1 a.2) (w.vmap c a.1)))
    ?_ ?_ ?_ ?_
  · rintro ⟨q, d⟩ ha
    rw [mem_product, mem_range, mem_range] at ha
    rw [mem_product, List.mem_toFinset, mem_range]
    exact ⟨(hm.face_in q ha.1 d ha.2).1, (hplace q ha.1 d ha.2).1⟩
  · rintro ⟨q, d⟩ ha ⟨q', d'⟩ ha' h
    rw [mem_product, mem_range, mem_range] at ha ha'
    rw [Prod.mk.injEq] at h
    obtain ⟨hf, hp⟩ := h
    dsimp only at hf hp ha ha'
    have e1 := (hplace q ha.1 d ha.2).2.1
    have e2 := (hplace q' ha'.1 d' ha'.2).2.1
    rw [hp, hf, e2] at e1
    obtain ⟨h1, h2, h3⟩ := hm.vertex q ha.1
    have hq : q = q' := by
      rw [← hcor q ha.1]
      exact ((hstar _ h1 h2).cor_only c h3 q' ha'.1 e1).symm
    subst hq
    have := (hstar _ h1 h2).face_inj c h3 d ha.2 d' ha'.2
    rw [hcor q ha.1] at this
    rw [this hf]
  · rintro ⟨f, j⟩ hb
    rw [mem_product, List.mem_toFinset, mem_range] at hb
    obtain ⟨q, hq, d, hd, hf, hj⟩ := hm.onto f hb.1 j hb.2
    refine ⟨(q, d), by rw [mem_product, mem_range, mem_range]; exact ⟨hq, hd⟩, ?_⟩
    dsimp only
    rw [hf, hj]
  · rintro ⟨q, d⟩ ha
    rw [mem_product, mem_range, mem_range] at ha
    dsimp only
    rw [(hm.face_in q ha.1 d ha.2).2, hm.size]
    unfold wgt
    push_cast
    rw [one_div_pow]
    ring

/-- The vertices of a cell, once each. -/
theorem sum_corners {w : Wy} {cor : Nat → Nat → Nat} {pl : Nat → Nat → Nat} {c : Nat}
    (hstar : ∀ v, w.vStart ≤ v → v < w.vEnd → Star w v (cor v)) (hm : CellMap w pl c) (g : Nat → ℝ) :
    ∑ k ∈ range (w.vEnd - w.vStart), (if c ∈ w.cells (w.vStart + k) then g (w.vStart + k) else 0)
      = ∑ q ∈ range w.nq, g (w.vmap c q) := by
  rw [← sum_filter]
  symm
  refine sum_bij (fun q _ => w.vmap c q - w.vStart) ?_ ?_ ?_ ?_
  · intro q hq
    obtain ⟨h1, h2, h3⟩ := hm.vertex q (mem_range.1 hq)
    rw [mem_filter, mem_range, Nat.add_sub_cancel' h1]
    exact ⟨by omega, h3⟩
  · intro q hq q' hq' h
    obtain ⟨h1, h2, h3⟩ := hm.vertex q (mem_range.1 hq)
    obtain ⟨h1', h2', h3'⟩ := hm.vertex q' (mem_range.1 hq')
    have he : w.vmap c q' = w.vmap c q := by omega
    have e1 := (hstar _ h1 h2).cor_only c h3 q (mem_range.1 hq) rfl
    have e2 := (hstar _ h1 h2).cor_only c h3 q' (mem_range.1 hq') he
    rw [e1, ← e2]
  · intro k hk
    rw [mem_filter, mem_range] at hk
    have hst := hstar (w.vStart + k) (by omega) (by omega)
    refine ⟨cor (w.vStart + k) c, mem_range.2 (hst.cor_lt c hk.2), ?_⟩
    rw [hst.cor_at c hk.2]
    omega
  · intro q hq
    obtain ⟨h1, _, _⟩ := hm.vertex q (mem_range.1 hq)
    rw [Nat.add_sub_cancel' h1]

/-! ### The residual -/

theorem residual_parts {w : Wy} {K : Nat → Nat → ℝ} {porosity dSdP u dpdt : Nat → ℝ} {l : Local}
    {vel : Nat → Nat → ℝ} {R R' : Nat → ℝ}
    (hok : wyResidual w K porosity dSdP u dpdt l vel R = .ok R') :
    ∃ l' vel', localElementCompute w K l = .ok l' ∧ wyRecoverVelocity w l'.A u vel = .ok vel'
      ∧ ∀ c, R' c = if c < w.nCells ∧ 0 ≤ w.global c then
        porosity c*dSdP c*dpdt c + wyDivergence w vel' c - l'.F c else R c := by
  unfold wyResidual at hok
  cases hl : localElementCompute w K l with
  | ok l1 =>
    rw [hl] at hok
    dsimp only at hok
    cases hv : wyRecoverVelocity w l1.A u vel with
    | ok vel1 =>
      rw [hv] at hok
      dsimp only at hok
      rw [Res.ok.injEq] at hok
      refine ⟨l1, vel1, rfl, hv, fun c => ?_⟩
      rw [← hok]
      refine forN_invariant w.nCells _ R (fun m (t : Nat → ℝ) => t c = if c < m ∧ 0 ≤ w.global c then
        porosity c*dSdP c*dpdt c + wyDivergence w vel1 c - l1.F c else R c) (by simp) ?_
      intro m t hm ht
      by_cases hg : w.global m < 0
      · rw [if_pos hg, ht]
        refine if_congr ?_ rfl rfl
        constructor
        · rintro ⟨a, b⟩; exact ⟨by omega, b⟩
        · rintro ⟨a, b⟩
          refine ⟨?_, b⟩
          rcases Nat.lt_succ_iff_lt_or_eq.1 a with h | h
          · exact h
          · subst h; omega
      · rw [if_neg hg]
        by_cases hcm : c = m
        · subst hcm
          rw [wr_same, if_pos ⟨by omega, by omega⟩]
        · rw [wr_other _ _ hcm, ht]
          refine if_congr ?_ rfl rfl
          constructor
          · rintro ⟨a, b⟩; exact ⟨by omega, b⟩
          · rintro ⟨a, b⟩; exact ⟨by omega, b⟩
    | err e => rw [hv] at hok; exact absurd hok (by simp)
    | ub => rw [hv] at hok; exact absurd hok (by simp)
  | err e => rw [hl] at hok; exact absurd hok (by simp)
  | ub => rw [hl] at hok; exact absurd hok (by simp)

end

end TDy.Fe.Proofs
