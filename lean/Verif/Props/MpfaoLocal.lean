import Verif.Proofs.MpfaoLocal
import Verif.Props.MpfaoTrans

/-! # C155: the transmissibilities read out of the buffers are those of the local problem -/

namespace TDy.Mpfao.Buf.Props

open TDy TDy.Mpfao TDy.Mpfao.Buf TDy.Mpfao.Buf.Proofs TDy.Mpfao.Spec TDy.Mpfao.Proofs

theorem noDir {v : Vtx} (h : 0 < nDirUp v ∨ 0 < nDirDn v) : nNeu v = 0 := by
  unfold nDirUp nDirDn at h
  unfold nNeu
  split
  · rfl
  · rename_i hd
    rw [if_neg hd, if_neg hd] at h
    omega

theorem rows_eq {v : Vtx} (wf : WellFormed v) (hd : v.dirichlet = true) :
    nIn v + nDirUp v + nDirDn v = v.nFaces := by
  rw [nIn_eq wf, wf.nFaces_eq, nBnd_split wf]
  simp only [nDirUp, nDirDn, hd, if_true]
  omega

/-- C155, refinement: cutting into blocks, packing, solving, multiplying and unpacking gives the rows of
the matrix form, refuses the same vertices, and leaves everything else in `Trans` as it was. -/
theorem C155_buffers {v : Vtx} (wf : WellFormed v) (T0 : Nat → Nat → ℝ) :
    (trans v = none ∧ transBuf v T0 = none) ∨
    ∃ T S, trans v = some T ∧ transBuf v T0 = some S ∧
      (∀ i < nIn v + nDirUp v + nDirDn v, ∀ j : Fin (v.npcen + nDir v), S i j = T i j) ∧
      ∀ i j, ¬ (i < nIn v + nDirUp v + nDirDn v ∧ j < v.npcen + nDir v) → S i j = T0 i j := by
  rcases solve_eq wf with ⟨h1, h2⟩ | ⟨X, Y, h1, h2, hXY⟩
  · left
    unfold trans transBuf
    rw [h1, h2]
    exact ⟨rfl, rfl⟩
  right
  unfold trans transBuf
  rw [h1, h2]
  refine ⟨_, _, rfl, rfl, ?_⟩
  beta_reduce
  have hX : ∀ (g : Nat → ℝ) (j : Fin (v.npcen + nDir v)), (∑ c : Fin (nSys v), g c * X c j) =
      ∑ c ∈ Finset.range (nSys v), g c * Y (j.1*nSys v + c) := by
    intro g j
    rw [Finset.sum_range]
    exact Finset.sum_congr rfl fun c _ => by rw [hXY]
  set CA := gemm (nIn v + nNeu v) (nIn v + nNeu v) (fun k => ((packA v).2 k).2) Y with hCA
  set CU := gemm (nDirUp v) (nIn v) (packUp v).2 Y with hCU
  set CD := gemm (nDirDn v) (nIn v) (packDn v).2 Y with hCD
  obtain ⟨a1, a2⟩ := unpackCols (v.npcen + nDir v) (nIn v) (nNeu v) 0
    (fun k i j => if j < v.npcen then CA k - (fUp v).b1 i j else CA k + (cUp v).b12 i (j - v.npcen)) T0
  obtain ⟨b1, b2⟩ := unpackCols (v.npcen + nDir v) (nDirUp v) 0 (nIn v)
    (fun k i j => if j < v.npcen then CU k - (fUp v).b2 i j else CU k + (cUp v).b22 i (j - v.npcen))
    (unpackIn v CA T0).2
  obtain ⟨c1, c2⟩ := unpackCols (v.npcen + nDir v) (nDirDn v) 0 (nIn v + nDirUp v)
    (fun k i j => if j < v.npcen then CD k - (fDn v).b2 i j else CD k + (cDn v).b22 i (j - v.npcen))
    (unpackUp v CU (unpackIn v CA T0).2).2
  change (∀ j < v.npcen + nDir v, ∀ i < nIn v, (unpackIn v CA T0).2 i j = _) at a1
  change (∀ a b, _ → (unpackIn v CA T0).2 a b = T0 a b) at a2
  change (∀ j < v.npcen + nDir v, ∀ i < nDirUp v, (unpackUp v CU (unpackIn v CA T0).2).2 (i + nIn v) j = _) at b1
  change (∀ a b, _ → (unpackUp v CU (unpackIn v CA T0).2).2 a b = (unpackIn v CA T0).2 a b) at b2
  simp only [← Nat.add_assoc] at c1 c2
  change (∀ j < v.npcen + nDir v, ∀ i < nDirDn v,
    (unpackDn v CD (unpackUp v CU (unpackIn v CA T0).2).2).2 (i + nIn v + nDirUp v) j = _) at c1
  change (∀ a b, _ → (unpackDn v CD (unpackUp v CU (unpackIn v CA T0).2).2).2 a b =
    (unpackUp v CU (unpackIn v CA T0).2).2 a b) at c2
  refine ⟨?_, ?_⟩
  · intro i hi j
    unfold transEntry
    by_cases hin : i < nIn v
    · rw [if_pos hin, c2 _ _ (by omega), b2 _ _ (by omega), a1 j j.2 i hin]
      have hg : CA (j.1*(nIn v + nNeu v) + i) = ∑ c : Fin (nSys v), (candF v).Cup i (colA v c) * X c j := by
        rw [hCA, gemm_eq _ _ _ _ _ _ (by omega), hX fun c => (candF v).Cup i (colA v c)]
        refine Finset.sum_congr rfl fun c hc => ?_
        have h := (packA_eq wf c i (Finset.mem_range.1 hc) (by unfold nSys; omega)).2 hin
        unfold nSys at h
        rw [h]
        rfl
      rw [hg]
      split
      · rename_i hj
        rw [show (fUp v).b1 i j.1 = (candF v).Fup i j.1 by
          unfold fUp subF; dsimp only; rw [extract_eq _ _ _ _ _ _ _ (by omega) (by omega)]; simp]
        ring
      · rename_i hj
        rw [show (cUp v).b12 i (j.1 - v.npcen) = (candF v).Cup i (nIn v + (j.1 - v.npcen)) by
          unfold cUp subC
          dsimp only
          rw [extract_eq _ _ _ _ _ _ _ (by omega) (by have := j.2; omega)]; simp]
    · rw [if_neg hin]
      by_cases hup : i < nIn v + nDirUp v
      · have hz := noDir (v := v) (Or.inl (by omega))
        have hb := b1 j j.2 (i - nIn v) (by omega)
        rw [show i - nIn v + nIn v = i by omega] at hb
        rw [if_pos hup, c2 _ _ (by omega), hb]
        have hg : CU (j.1*(nDirUp v + 0) + (i - nIn v)) =
            ∑ c : Fin (nSys v), (candF v).Cup i (colA v c) * X c j := by
          have hn : nSys v = nIn v := by unfold nSys; omega
          rw [hCU, Nat.add_zero, gemm_eq _ _ _ _ _ _ (by omega), hX fun c => (candF v).Cup i (colA v c), hn]
          refine Finset.sum_congr rfl fun c hc => ?_
          have hc' := Finset.mem_range.1 hc
          rw [packUp, packOne_eq _ _ _ _ _ (by omega) (by omega)]
          unfold cUp subC
          dsimp only
          rw [extract_eq _ _ _ _ _ _ _ (by omega) (by omega), colA, if_pos (by omega), Nat.zero_add,
            show nIn v + (i - nIn v) = i by omega]
        rw [hg]
        split
        · rename_i hj
          rw [show (fUp v).b2 (i - nIn v) j.1 = (candF v).Fup i j.1 by
            unfold fUp subF
            dsimp only
            rw [extract_eq _ _ _ _ _ _ _ (by omega) (by omega), show nIn v + (i - nIn v) = i by omega]; simp]
          ring
        · rename_i hj
          rw [show (cUp v).b22 (i - nIn v) (j.1 - v.npcen) = (candF v).Cup i (nIn v + (j.1 - v.npcen)) by
            unfold cUp subC
            dsimp only
            rw [extract_eq _ _ _ _ _ _ _ (by omega) (by have := j.2; omega),
              show nIn v + (i - nIn v) = i by omega]]
      · have hz := noDir (v := v) (Or.inr (by omega))
        obtain ⟨k, rfl⟩ : ∃ k, i = k + nIn v + nDirUp v := ⟨i - nIn v - nDirUp v, by omega⟩
        rw [if_neg hup, c1 j j.2 k (by omega), Nat.add_sub_cancel]
        have hg : CD (j.1*(nDirDn v + 0) + k) =
            ∑ c : Fin (nSys v), (candF v).Cdn (k + nIn v) (colA v c) * X c j := by
          have hn : nSys v = nIn v := by unfold nSys; omega
          rw [hCD, Nat.add_zero, gemm_eq _ _ _ _ _ _ (by omega),
            hX fun c => (candF v).Cdn (k + nIn v) (colA v c), hn]
          refine Finset.sum_congr rfl fun c hc => ?_
          have hc' := Finset.mem_range.1 hc
          rw [packDn, packOne_eq _ _ _ _ _ (by omega) (by omega)]
          unfold cDn subC
          dsimp only
          rw [extract_eq _ _ _ _ _ _ _ (by omega) (by omega), colA, if_pos (by omega), Nat.zero_add,
            Nat.add_comm (nIn v) k]
        rw [hg]
        split
        · rename_i hj
          rw [show (fDn v).b2 k j.1 = (candF v).Fdn (k + nIn v) j.1 by
            unfold fDn subF
            dsimp only
            rw [extract_eq _ _ _ _ _ _ _ (by omega) (by omega), Nat.add_comm (nIn v) k]; simp]
          ring
        · rename_i hj
          rw [show (cDn v).b22 k (j.1 - v.npcen) = (candF v).Cdn (k + nIn v) (nIn v + (j.1 - v.npcen)) by
            unfold cDn subC
            dsimp only
            rw [extract_eq _ _ _ _ _ _ _ (by omega) (by have := j.2; omega), Nat.add_comm (nIn v) k]]
  · intro i j hij
    rw [c2 _ _ (by omega), b2 _ _ (by omega), a2 _ _ (by omega)]

/-- C155: the row saved for a face (of the interior, or of a boundary with given pressures) times the
cell and boundary pressures is the flux that both sides of the face see once the face pressures are
balanced. -/
theorem C155_flux {v : Vtx} (wf : WellFormed v) {T0 S : Nat → Nat → ℝ} (hS : transBuf v T0 = some S)
    (u pb p : Nat → ℝ) (hp : Balanced v u pb p) {r i f : Nat} (h : InRange v i f)
    (hb : (v.sub i).internal f = true ∨ v.dirichlet = true)
    (hr : RowOf v r ((v.sub i).face f)) :
    (∑ j : Fin (v.npcen + nDir v),
      S r j * (if j.1 < v.npcen then u j else pb (idxBnd v (j - v.npcen)))) =
      oneSided (v.sub i) (u i) p f := by
  rcases C155_buffers wf T0 with ⟨-, h0⟩ | ⟨T, S', hT, hS', heq, -⟩
  · rw [h0] at hS; cases hS
  rw [hS'] at hS
  cases hS
  rw [← TDy.Mpfao.Props.C47_common_flux wf hT u pb p hp h hb hr]
  unfold transTimes
  have hlt : r < nIn v + nDirUp v + nDirDn v := by
    cases hd : v.dirichlet
    · rcases hb with hb | hb
      · have : r < v.nIntFaces := by
          have hrow := row_eq wf h hr
          rw [hrow, posq, q_div h.2, q_mod h.2, hb, if_pos rfl]
          exact wf.link_lt _ _ h hb
        rw [nIn_eq wf]; omega
      · rw [hd] at hb; cases hb
    · rw [rows_eq wf hd]; exact hr.1
  exact Finset.sum_congr rfl fun j _ => by rw [heq r hlt j]

/-- Non-vacuity: the boundary vertex between two unit cubes with an anisotropic tensor is well formed and
not refused; its five rows are those of the matrix form. -/
example (T0 : Nat → Nat → ℝ) : WellFormed TDy.Mpfao.Props.Witness.v ∧
    ∃ S, transBuf TDy.Mpfao.Props.Witness.v T0 = some S := by
  refine ⟨TDy.Mpfao.Props.Witness.wf, ?_⟩
  rcases C155_buffers TDy.Mpfao.Props.Witness.wf T0 with ⟨h, -⟩ | ⟨-, S, -, h, -⟩
  · obtain ⟨T, hT⟩ := TDy.Mpfao.Props.Witness.solvable
    rw [h] at hT; cases hT
  · exact ⟨S, h⟩

end TDy.Mpfao.Buf.Props
