import Verif.Spec.MpfaoSteady
import Verif.Proofs.Fvtpf
import Verif.Props.MpfaoTrans
import Verif.Props.MpfaoCorner
import Mathlib.Tactic.Ring
import Mathlib.Tactic.Linarith

/-!
# C60, C99, C100: the steady system of the MPFA-O method
-/

namespace TDy.Mpfao.Props

open TDy.Mpfao TDy.Mpfao.Spec TDy.Fvtpf TDy.Fvtpf.Proofs
open Finset

/-- A loop whose steps add to a quantity adds the sum. -/
theorem forN_additive {σ : Type} (φ : σ → ℝ) (g : Nat → ℝ) (body : Nat → σ → σ) :
    ∀ (n : Nat) (s : σ), (∀ i < n, ∀ s, φ (body i s) = φ s + g i) →
      φ (forN n body s) = φ s + ∑ i ∈ range n, g i := by
  intro n
  induction n with
  | zero => intro s _; simp [forN]
  | succ n ih =>
    intro s h
    rw [forN, h n (Nat.lt_succ_self n), ih s (fun i hi => h i (by omega)), sum_range_succ]
    ring

theorem unbalance_addK {N : Nat} (s : Sys) (r c : Nat) (v : ℝ) (u : Nat → ℝ) (a : Nat)
    (hc : c < N) :
    unbalance N (s.addK r c v) u a = unbalance N s u a + if r = a then v*u c else 0 := by
  unfold unbalance Sys.addK
  simp only [addMat_apply, add_mul, sum_add_distrib]
  by_cases h : r = a
  · subst h
    have : ∑ x ∈ range N, (if r = r ∧ x = c then v else 0)*u x = v*u c := by
      rw [sum_eq_single c]
      · simp
      · intro b _ hb; simp [hb]
      · intro hn; exact absurd (mem_range.2 hc) hn
    rw [this, if_pos rfl]; ring
  · have : ∑ x ∈ range N, (if a = r ∧ x = c then v else 0)*u x = 0 := by
      refine sum_eq_zero fun x _ => ?_
      rw [if_neg (fun hh => h hh.1.symm), zero_mul]
    rw [this, if_neg h]; ring

theorem unbalance_addF {N : Nat} (s : Sys) (r : Nat) (v : ℝ) (u : Nat → ℝ) (a : Nat) :
    unbalance N (s.addF r v) u a = unbalance N s u a + if r = a then -v else 0 := by
  unfold unbalance Sys.addF
  simp only [addAt_apply]
  by_cases h : r = a
  · subst h; simp; ring
  · rw [if_neg (fun hh => h hh.symm), if_neg h]; ring

theorem loop_addF {N : Nat} (n r : Nat) (g : Nat → ℝ) (u : Nat → ℝ) (a : Nat) (s : Sys) :
    unbalance N (forN n (fun k s => s.addF r (g k)) s) u a = unbalance N s u a +
      if r = a then -∑ k ∈ range n, g k else 0 := by
  rw [forN_additive (fun s => unbalance N s u a) (fun k => if r = a then -g k else 0) _ _ _
    fun k _ s => unbalance_addF s r (g k) u a]
  split_ifs <;> simp

theorem loop_addK {N : Nat} (n r : Nat) (c : Nat → Nat) (g : Nat → ℝ) (u : Nat → ℝ) (a : Nat)
    (hc : ∀ k < n, c k < N) (s : Sys) :
    unbalance N (forN n (fun k s => s.addK r (c k) (g k)) s) u a = unbalance N s u a +
      if r = a then ∑ k ∈ range n, g k*u (c k) else 0 := by
  rw [forN_additive (fun s => unbalance N s u a) (fun k => if r = a then g k*u (c k) else 0) _ _ _
    fun k hk s => unbalance_addK s r (c k) (g k) u a (hc k hk)]
  split_ifs <;> simp

section
variable {m : Steady} {N : Nat} {w : SVert}

theorem internal_apply (hlt : ∀ k < w.nCells, m.gid (w.cell k) < N)
    (hin : ∀ i < w.nFaces - w.nBnd, 0 ≤ (m.face (w.face i)).up ∧ 0 ≤ (m.face (w.face i)).dn)
    (u : Nat → ℝ) (r : Nat) (s : Sys) (h0 : w.nBnd = 0) :
    unbalance N (steadyInternal m w s) u r = unbalance N s u r +
      ∑ i ∈ range w.nFaces, subfaceIn m w u r i := by
  unfold steadyInternal
  rw [if_pos h0]
  refine forN_additive (fun s => unbalance N s u r) _ _ _ s fun i hi s => ?_
  have hs := hin i (by omega)
  have : ∀ k < w.nCells, ∀ s : Sys, unbalance N
      (let f := m.face (w.face i)
        let value := -w.T i k
        let s := if m.isLocal f.up.toNat then
          s.addK (m.gid f.up.toNat) (m.gid (w.cell k)) value else s
        if m.isLocal f.dn.toNat then
          s.addK (m.gid f.dn.toNat) (m.gid (w.cell k)) (-value) else s) u r = unbalance N s u r +
        ((if OwnsSide m (m.face (w.face i)).dn r then w.T i k*u (m.gid (w.cell k)) else 0) -
        if OwnsSide m (m.face (w.face i)).up r then w.T i k*u (m.gid (w.cell k)) else 0) := by
    intro k hk s
    dsimp only [OwnsSide, Owns]
    simp only [hs.1, hs.2, true_and]
    by_cases l1 : m.isLocal (m.face (w.face i)).up.toNat = true <;>
      by_cases l2 : m.isLocal (m.face (w.face i)).dn.toNat = true <;>
      simp [l1, l2, unbalance_addK _ _ _ _ _ _ (hlt k hk)] <;> split_ifs <;> ring
  rw [forN_additive (fun s => unbalance N s u r) _ _ _ s this, subfaceIn, throughSub, h0,
    sum_range_zero, add_zero, sum_sub_distrib]
  congr 2
  · split_ifs <;> simp
  · split_ifs <;> simp

theorem sharedUp_apply (hlt : ∀ k < w.nCells, m.gid (w.cell k) < N) (u : Nat → ℝ) (r i c : Nat)
    (s : Sys) : unbalance N (sharedUp m w i c s) u r = unbalance N s u r -
      if m.gid c = r then throughSub m w u i else 0 := by
  unfold sharedUp
  dsimp only
  rw [loop_addF w.nBnd _ _ u r,
    loop_addK w.nCells _ (fun k => m.gid (w.cell k)) _ u r (fun k hk => hlt k hk)]
  by_cases h : m.gid c = r
  · simp only [h, if_true, throughSub, neg_mul, neg_neg, sum_neg_distrib]; ring
  · simp [h]

theorem sharedDn_apply (hlt : ∀ k < w.nCells, m.gid (w.cell k) < N) (u : Nat → ℝ) (r i c : Nat)
    (s : Sys) : unbalance N (sharedDn m w i c s) u r = unbalance N s u r +
      if m.gid c = r then throughSub m w u i else 0 := by
  unfold sharedDn
  dsimp only
  rw [loop_addF w.nBnd _ _ u r,
    loop_addK w.nCells _ (fun k => m.gid (w.cell k)) _ u r (fun k hk => hlt k hk)]
  by_cases h : m.gid c = r
  · simp only [h, if_true, throughSub, neg_mul, neg_neg, sum_neg_distrib]; ring
  · simp [h]

theorem sharedOuter_apply (hlt : ∀ k < w.nCells, m.gid (w.cell k) < N) (u : Nat → ℝ) (r i : Nat)
    (s : Sys) : unbalance N (sharedOuter m w i s) u r = unbalance N s u r + subfaceIn m w u r i := by
  unfold sharedOuter subfaceIn
  dsimp only [OwnsSide, Owns]
  by_cases h1 : 0 ≤ (m.face (w.face i)).up <;> by_cases h2 : 0 ≤ (m.face (w.face i)).dn <;>
    by_cases l1 : m.isLocal (m.face (w.face i)).up.toNat = true <;>
    by_cases l2 : m.isLocal (m.face (w.face i)).dn.toNat = true <;>
    simp [h1, h2, l1, l2, sharedUp_apply hlt, sharedDn_apply hlt] <;> ring

theorem sharedInner_apply (hlt : ∀ k < w.nCells, m.gid (w.cell k) < N) (u : Nat → ℝ) (r i : Nat)
    (hs : 0 ≤ (m.face (w.face i)).up ∧ 0 ≤ (m.face (w.face i)).dn) (s : Sys) :
    unbalance N (sharedInner m w i s) u r = unbalance N s u r + subfaceIn m w u r i := by
  rw [← sharedOuter_apply hlt]
  unfold sharedInner sharedOuter
  simp [hs.1, hs.2]

theorem shared_apply (hlt : ∀ k < w.nCells, m.gid (w.cell k) < N) (hb : w.nBnd ≤ w.nFaces)
    (hin : ∀ i < w.nFaces - w.nBnd, 0 ≤ (m.face (w.face i)).up ∧ 0 ≤ (m.face (w.face i)).dn)
    (u : Nat → ℝ) (r : Nat) (s : Sys) (h : ¬(w.nBnd = 0 ∨ w.nCells < 2 ∨ w.isLocal = false)) :
    unbalance N (steadyShared m w s) u r = unbalance N s u r +
      ∑ i ∈ range w.nFaces, subfaceIn m w u r i := by
  unfold steadyShared
  rw [if_neg h]
  dsimp only
  rw [forN_additive (fun s => unbalance N s u r) _ _ _ _
      fun k _ s => sharedOuter_apply hlt u r (k + (w.nFaces - w.nBnd)) s,
    forN_additive (fun s => unbalance N s u r) _ _ _ _
      fun k hk s => sharedInner_apply hlt u r k (hin k hk) s, add_assoc]
  congr 1
  conv_rhs => rw [show w.nFaces = (w.nFaces - w.nBnd) + w.nBnd by omega, sum_range_add]
  congr 1
  exact sum_congr rfl fun k _ => by rw [add_comm]

theorem corner_apply (hlt : ∀ k < w.nCells, m.gid (w.cell k) < N) (hc1 : w.nCells = 1)
    (hb3 : w.nBnd = 3) (hf : ∀ k < 3,
      ((m.face (w.subFace k)).up = w.cell 0 ∧ (m.face (w.subFace k)).dn < 0) ∨
      ((m.face (w.subFace k)).dn = w.cell 0 ∧ (m.face (w.subFace k)).up < 0))
    (u : Nat → ℝ) (r : Nat) (s : Sys) :
    unbalance N (steadyCorner m w s) u r = unbalance N s u r +
      ∑ i ∈ range 3, if Owns m (w.cell 0) r then cornerIn m w u i else 0 := by
  unfold steadyCorner
  rw [if_neg (by omega)]
  dsimp only
  have hK : ∀ i, ∀ s : Sys, unbalance N (cornerK m w i s) u r = unbalance N s u r +
      if Owns m (w.cell 0) r then -cornerValue m w i*u (m.gid (w.cell 0)) else 0 := by
    intro i s
    unfold cornerK
    dsimp only [Owns]
    by_cases hl : m.isLocal (w.cell 0) = true
    swap
    · simp [hl]
    · simp only [hl, if_true, true_and]
      exact unbalance_addK _ _ _ _ _ _ (hlt 0 (by omega))
  have hF : ∀ i < 3, ∀ s : Sys, unbalance N (cornerF m w i s) u r = unbalance N s u r +
      if Owns m (w.cell 0) r then
        (if 0 ≤ (m.face (w.subFace i)).up then ∑ k ∈ range 3, w.T i k*w.bndP k
          else -∑ k ∈ range 3, w.T i k*w.bndP k) else 0 := by
    intro i hi s
    unfold cornerF
    dsimp only [Owns]
    rcases hf i hi with ⟨h1, h2⟩ | ⟨h1, h2⟩
    · rw [if_neg (by omega), if_pos (show 0 ≤ (m.face (w.subFace i)).up by omega), h1,
        Int.toNat_natCast]
      by_cases hl : m.isLocal (w.cell 0) = true
      swap
      · simp [hl]
      · rw [if_pos ⟨by omega, hl⟩, hb3, loop_addF 3 _ _ u r]
        by_cases h : m.gid (w.cell 0) = r
        · simp [h, hl]
        · simp [h]
    · rw [if_neg (show ¬(0 ≤ (m.face (w.subFace i)).up ∧ _) by omega),
        if_neg (show ¬0 ≤ (m.face (w.subFace i)).up by omega), h1, Int.toNat_natCast]
      by_cases hl : m.isLocal (w.cell 0) = true
      swap
      · simp [hl]
      · rw [if_pos ⟨by omega, hl⟩, hb3, loop_addF 3 _ _ u r]
        by_cases h : m.gid (w.cell 0) = r
        · simp [h, hl]
        · simp [h]
  rw [forN_additive (fun s => unbalance N s u r) _ _ _ _ fun k hk s => hF k hk s,
    forN_additive (fun s => unbalance N s u r) _ _ _ _ fun k _ s => hK k s, add_assoc,
    ← sum_add_distrib]
  congr 1
  refine sum_congr rfl fun i hi => ?_
  split
  · unfold cornerValue cornerIn
    dsimp only
    by_cases h : 0 ≤ (m.face (w.subFace i)).up
    · rw [if_pos h, if_pos h, if_pos (show (m.face (w.subFace i)).up > -1 by omega)]; norm_num; ring
    · rw [if_neg h, if_neg h, if_neg (show ¬(m.face (w.subFace i)).up > -1 by omega)]; norm_num; ring
  · simp

end

/-- C60: the assembled system, row by row: every subface of a regular vertex takes from the up cell
what it gives to the down cell; corners and the source contribute what `cornerIn` and `sourceIn`
say; and what `F` held before is still there. -/
theorem C60_rows {m : Steady} {N : Nat} (ok : SteadyOk m N) (u : Nat → ℝ) (r : Nat) (s : Sys) :
    unbalance N (computeSystem m s) u r =
      ∑ v ∈ range m.numVertices, (
        (if Regular (m.vert v) then
          ∑ i ∈ range (m.vert v).nFaces, subfaceIn m (m.vert v) u r i else 0) +
        if IsCorner (m.vert v) ∧ Owns m ((m.vert v).cell 0) r then
          ∑ i ∈ range 3, cornerIn m (m.vert v) u i else 0) - sourceIn m r - s.F r := by
  have hS : ∀ s : Sys, unbalance N (steadyForcing m s) u r = unbalance N s u r - sourceIn m r := by
    intro s
    unfold steadyForcing sourceIn
    cases m.forcing with
    | none => simp
    | some f =>
      dsimp only
      have : ∀ i < m.numCells, ∀ s : Sys, unbalance N
          (if m.isLocal i then s.addF (m.gid i) (f i*m.vol i) else s) u r = unbalance N s u r +
            -(if Owns m i r then f i*m.vol i else 0) := by
        intro i _ s
        dsimp only [Owns]
        by_cases hl : m.isLocal i = true
        swap
        · simp [hl]
        · simp only [hl, if_true, true_and, unbalance_addF]
          split <;> ring
      rw [forN_additive (fun s => unbalance N s u r) _ _ _ _ this, sum_neg_distrib]
      ring
  have h1 : ∀ v < m.numVertices, ∀ s : Sys, unbalance N (steadyInternal m (m.vert v) s) u r =
      unbalance N s u r + if (m.vert v).nBnd = 0 then
        ∑ i ∈ range (m.vert v).nFaces, subfaceIn m (m.vert v) u r i else 0 := by
    intro v hv s
    by_cases h : (m.vert v).nBnd = 0
    · rw [internal_apply (ok.lt v hv) (ok.inner v hv) u r s h, if_pos h]
    · unfold steadyInternal; rw [if_neg h, if_neg h, add_zero]
  have h2 : ∀ v < m.numVertices, ∀ s : Sys, unbalance N (steadyShared m (m.vert v) s) u r =
      unbalance N s u r +
      if ¬((m.vert v).nBnd = 0 ∨ (m.vert v).nCells < 2 ∨ (m.vert v).isLocal = false) then
        ∑ i ∈ range (m.vert v).nFaces, subfaceIn m (m.vert v) u r i else 0 := by
    intro v hv s
    by_cases h : (m.vert v).nBnd = 0 ∨ (m.vert v).nCells < 2 ∨ (m.vert v).isLocal = false
    · unfold steadyShared; rw [if_pos h, if_neg (fun hh => hh h), add_zero]
    · rw [shared_apply (ok.lt v hv) (ok.bnd_le v hv) (ok.inner v hv) u r s h, if_pos h]
  have h3 : ∀ v < m.numVertices, ∀ s : Sys, unbalance N (steadyCorner m (m.vert v) s) u r =
      unbalance N s u r + if IsCorner (m.vert v) ∧ Owns m ((m.vert v).cell 0) r then
        ∑ i ∈ range 3, cornerIn m (m.vert v) u i else 0 := by
    intro v hv s
    by_cases h : (m.vert v).nBnd = 0 ∨ (m.vert v).nCells > 1
    · unfold steadyCorner; rw [if_pos h, if_neg (fun hh => hh.1 h), add_zero]
    · obtain ⟨a, b, c⟩ := ok.corner v hv (by omega) (by omega)
      rw [corner_apply (ok.lt v hv) a b c u r s]
      congr 1
      by_cases ho : Owns m ((m.vert v).cell 0) r
      · rw [if_pos ⟨h, ho⟩]
        exact sum_congr rfl fun i _ => if_pos ho
      · rw [if_neg (fun hh => ho hh.2)]
        exact sum_eq_zero fun i _ => if_neg ho
  unfold computeSystem
  dsimp only
  rw [hS, forN_additive (fun s => unbalance N s u r) _ _ _ _ h3,
    forN_additive (fun s => unbalance N s u r) _ _ _ _ h2,
    forN_additive (fun s => unbalance N s u r) _ _ _ _ h1]
  have h0 : unbalance N ⟨fun _ _ => 0, s.F⟩ u r = -s.F r := by simp [unbalance]
  rw [h0]
  have e : ∀ v, (if Regular (m.vert v) then
      ∑ i ∈ range (m.vert v).nFaces, subfaceIn m (m.vert v) u r i else 0) =
      (if (m.vert v).nBnd = 0 then
        ∑ i ∈ range (m.vert v).nFaces, subfaceIn m (m.vert v) u r i else 0) +
      if ¬((m.vert v).nBnd = 0 ∨ (m.vert v).nCells < 2 ∨ (m.vert v).isLocal = false) then
        ∑ i ∈ range (m.vert v).nFaces, subfaceIn m (m.vert v) u r i else 0 := by
    intro v
    by_cases a : (m.vert v).nBnd = 0
    · simp [a]
    · simp only [Regular, a, false_or, if_false, zero_add]
  simp only [e, sum_add_distrib]
  ring

theorem sum_side {m : Steady} {N : Nat} (one : OneProcess m N) {c : ℤ} (hc : c < m.numCells)
    (x : ℝ) : ∑ r ∈ range N, (if OwnsSide m c r then x else 0) = if 0 ≤ c then x else 0 := by
  by_cases h : 0 ≤ c
  · rw [if_pos h, sum_eq_single (m.gid c.toNat)]
    · exact if_pos ⟨h, one.all _, rfl⟩
    · intro b _ hb; exact if_neg fun hh => hb hh.2.2.symm
    · intro hn; exact absurd (mem_range.2 (one.row _ (by omega))) hn
  · rw [if_neg h]
    exact sum_eq_zero fun r _ => if_neg fun hh => h hh.1

theorem sum_owns {m : Steady} {N : Nat} (one : OneProcess m N) {c : Nat} (hc : m.gid c < N)
    (x : ℝ) : ∑ r ∈ range N, (if Owns m c r then x else 0) = x := by
  rw [sum_eq_single (m.gid c)]
  · exact if_pos ⟨one.all _, rfl⟩
  · intro b _ hb; exact if_neg fun hh => hb hh.2.symm
  · intro hn; exact absurd (mem_range.2 hc) hn

/-- **C60 (conservation).**  Summed over all rows the internal subfaces cancel: only subfaces on the
boundary, corners, the source, and what `F` held before remain. -/
theorem C60_balance {m : Steady} {N : Nat} (ok : SteadyOk m N) (one : OneProcess m N) (u : Nat → ℝ)
    (s : Sys) :
    ∑ r ∈ range N, unbalance N (computeSystem m s) u r =
      ∑ v ∈ range m.numVertices, (
        (if Regular (m.vert v) then
          ∑ k ∈ range (m.vert v).nBnd, boundaryIn m (m.vert v) u
            ((m.vert v).nFaces - (m.vert v).nBnd + k) else 0) +
        if IsCorner (m.vert v) then ∑ i ∈ range 3, cornerIn m (m.vert v) u i else 0) -
      (match m.forcing with
        | none => 0
        | some f => ∑ i ∈ range m.numCells, f i*m.vol i) - ∑ r ∈ range N, s.F r := by
  simp only [C60_rows ok, sum_sub_distrib]
  congr 1
  congr 1
  · rw [sum_comm]
    refine sum_congr rfl fun v hv => ?_
    have hv := mem_range.1 hv
    rw [sum_add_distrib]
    congr 1
    · by_cases h : Regular (m.vert v)
      · simp only [if_pos h]
        rw [sum_comm]
        have e : ∀ i < (m.vert v).nFaces, ∑ r ∈ range N, subfaceIn m (m.vert v) u r i =
            boundaryIn m (m.vert v) u i := by
          intro i hi
          have hs := one.side v hv i hi
          simp only [subfaceIn, boundaryIn, sum_sub_distrib]
          rw [sum_side one hs.1, sum_side one hs.2]
        rw [sum_congr rfl fun i hi => e i (mem_range.1 hi)]
        have hb := ok.bnd_le v hv
        conv_lhs => rw [show (m.vert v).nFaces =
          ((m.vert v).nFaces - (m.vert v).nBnd) + (m.vert v).nBnd by omega, sum_range_add]
        rw [sum_eq_zero (s := range ((m.vert v).nFaces - (m.vert v).nBnd)), zero_add]
        intro i hi
        have hi := ok.inner v hv i (mem_range.1 hi)
        rw [boundaryIn, if_pos hi.1, if_pos hi.2, sub_self]
      · simp [h]
    · by_cases h : IsCorner (m.vert v)
      · rw [if_pos h]
        have hc := ok.corner v hv (by omega) (by omega)
        refine Eq.trans ?_ (sum_owns one (ok.lt v hv 0 (by omega))
          (∑ i ∈ range 3, cornerIn m (m.vert v) u i))
        refine sum_congr rfl fun r _ => ?_
        by_cases ho : Owns m ((m.vert v).cell 0) r
        · rw [if_pos ⟨h, ho⟩, if_pos ho]
        · rw [if_neg (fun hh => ho hh.2), if_neg ho]
      · rw [if_neg h]
        exact sum_eq_zero fun r _ => if_neg fun hh => h hh.1
  · unfold sourceIn
    cases m.forcing with
    | none => simp
    | some f =>
      dsimp only
      rw [sum_comm]
      exact sum_congr rfl fun i hi => sum_owns one (one.row i (mem_range.1 hi)) _

/-- With a constant pressure nothing flows through the subfaces of a regular vertex. -/
theorem through_const {m : Steady} {w : SVert} (hT : FromTrans w) (c : ℝ)
    (hb : ∀ k < w.nBnd, w.bndP k = c) {i : Nat} (hi : i < w.nFaces) :
    throughSub m w (fun _ => c) i = 0 := by
  obtain ⟨v, T, wf, ht, hd, h1, h2, h3, h4⟩ := hT
  have key := (C46_constants wf ht 0 (h3 ▸ hi) (Or.inr hd)).1
  have e : ∑ j ∈ range (v.npcen + nDir v), w.T i j = 0 := by
    rw [← key, sum_range]
    exact sum_congr rfl fun j _ => h4 i hi j
  rw [← h1, ← h2, sum_range_add] at e
  unfold throughSub
  have e2 : ∑ k ∈ range w.nBnd, w.T i (k + w.nCells)*w.bndP k =
      ∑ k ∈ range w.nBnd, w.T i (w.nCells + k)*c :=
    sum_congr rfl fun k hk => by rw [hb k (mem_range.1 hk), add_comm]
  rw [e2, ← sum_mul, ← sum_mul, ← add_mul, e, zero_mul]

/-- **C60 (constants).**  Without a source, a constant pressure equal to the boundary pressure
satisfies every equation of the system assembled into a zero vector. -/
theorem C60_constant {m : Steady} {N : Nat} (ok : SteadyOk m N) (hf : m.forcing = none)
    (hT : ∀ v < m.numVertices, ¬IsCorner (m.vert v) → FromTrans (m.vert v)) (c : ℝ)
    (hb : ∀ v < m.numVertices, ∀ k < (m.vert v).nBnd, (m.vert v).bndP k = c) (s : Sys) (r : Nat)
    (h0 : s.F r = 0) :
    unbalance N (computeSystem m s) (fun _ => c) r = 0 := by
  rw [C60_rows ok, h0]
  have hs : sourceIn m r = 0 := by simp [sourceIn, hf]
  rw [hs, sub_zero, sub_zero]
  refine sum_eq_zero fun v hv => ?_
  have hv := mem_range.1 hv
  have e1 : (if Regular (m.vert v) then
      ∑ i ∈ range (m.vert v).nFaces, subfaceIn m (m.vert v) (fun _ => c) r i else 0) = 0 := by
    split
    · rename_i h
      refine sum_eq_zero fun i hi => ?_
      have := through_const (m := m) (hT v hv (by unfold Regular at h; omega)) c (hb v hv) (mem_range.1 hi)
      simp [subfaceIn, this]
    · rfl
  have e2 : (if IsCorner (m.vert v) ∧ Owns m ((m.vert v).cell 0) r then
      ∑ i ∈ range 3, cornerIn m (m.vert v) (fun _ => c) i else 0) = 0 := by
    split
    · rename_i h
      have hc := ok.corner v hv (by have := h.1; omega) (by have := h.1; omega)
      refine sum_eq_zero fun i _ => ?_
      have b := hb v hv
      rw [hc.2.1] at b
      simp only [cornerIn, sum_range_succ, sum_range_zero, b 0 (by norm_num), b 1 (by norm_num),
        b 2 (by norm_num)]
      split <;> ring
    · rfl
  rw [e1, e2, add_zero]

/-! ### C99: corners -/

/-- What a corner whose faces have their cell on the up side contributes: the columns are read as
they were before the transmissibilities were reordered. -/
theorem corner_actual {m : Steady} {w : SVert} {c : Corner} {pb} (fc : FromCorner m w c pb)
    (u : Nat → ℝ) :
    ∑ i ∈ range 3, cornerIn m w u i = -∑ i ∈ range 3, (c.G i 2*u (m.gid (w.cell 0)) -
      (c.G i 0 + c.G i 1 + c.G i 2)*w.bndP 0 + c.G i 0*w.bndP 1 + c.G i 1*w.bndP 2) := by
  obtain ⟨T, hT, h⟩ := cornerTrans_eq fc.ok (fun _ _ => 0)
  have : T = w.T := by
    have := fc.T
    rw [hT] at this
    exact Option.some.inj this
  subst this
  rw [← sum_neg_distrib]
  refine sum_congr rfl fun i hi => ?_
  have hi := mem_range.1 hi
  have hh := h i hi
  have a0 := hh.2 0 (by norm_num)
  have a1 := hh.2 1 (by norm_num)
  simp only [id_eq] at hh a0 a1
  simp only [cornerIn, if_pos (fc.up i hi), sum_range_succ, sum_range_zero, hh.1, a0, a1]
  ring

/-- **C99 (partial).**  In equilibrium a corner contributes what it should, nothing. -/
theorem C99_equilibrium_partial {m : Steady} {w : SVert} {c : Corner} {pb} (fc : FromCorner m w c pb)
    (p : ℝ) (hp : ∀ k < 3, w.bndP k = p) :
    ∑ i ∈ range 3, cornerIn m w (fun _ => p) i =
      -∑ f ∈ range 3, cornerFlux c p pb f := by
  rw [corner_actual fc]
  congr 1
  refine sum_congr rfl fun i _ => ?_
  have b := fc.bndP
  simp only [cornerFlux, sum_range_succ, sum_range_zero, ← b 0 (by norm_num), ← b 1 (by norm_num),
    ← b 2 (by norm_num), hp 0 (by norm_num), hp 1 (by norm_num), hp 2 (by norm_num)]
  ring

/-- **C99, violated.**  Away from equilibrium it does not: with boundary pressure 0, the cell gets
the flux through its corner subfaces only if the first two columns of the local matrix sum to
zero. -/
theorem C99_corner_violated {m : Steady} {w : SVert} {c : Corner} (fc : FromCorner m w c (fun _ => 0))
    (hG : ∑ i ∈ range 3, (c.G i 0 + c.G i 1) ≠ 0) :
    ∑ i ∈ range 3, cornerIn m w (fun _ => 1) i ≠ -∑ f ∈ range 3, cornerFlux c 1 (fun _ => 0) f := by
  rw [corner_actual fc]
  have b := fc.bndP
  intro h
  apply hG
  simp only [cornerFlux, sum_range_succ, sum_range_zero, b 0 (by norm_num), b 1 (by norm_num),
    b 2 (by norm_num)] at h ⊢
  linarith

/-! ### C100: assembling again -/

/-- Add `d` to the right-hand side. -/
noncomputable def shiftF (d : Nat → ℝ) (s : Sys) : Sys := ⟨s.K, fun r => s.F r + d r⟩

theorem forN_comm {σ : Type} (g : σ → σ) (body : Nat → σ → σ) (h : ∀ i s, body i (g s) = g (body i s)) :
    ∀ n s, forN n body (g s) = g (forN n body s) := by
  intro n
  induction n with
  | zero => intro s; rfl
  | succ n ih => intro s; rw [forN, ih, h]; rfl

theorem addF_shift (d : Nat → ℝ) (r : Nat) (v : ℝ) (s : Sys) :
    (shiftF d s).addF r v = shiftF d (s.addF r v) := by
  unfold shiftF Sys.addF
  congr 1
  funext a
  simp only [addAt_apply]
  ring

theorem addK_shift (d : Nat → ℝ) (r c : Nat) (v : ℝ) (s : Sys) :
    (shiftF d s).addK r c v = shiftF d (s.addK r c v) := rfl

theorem ite_shift (d : Nat → ℝ) (P : Prop) [Decidable P] (f : Sys → Sys)
    (h : ∀ s, f (shiftF d s) = shiftF d (f s)) (s : Sys) :
    (if P then f (shiftF d s) else shiftF d s) = shiftF d (if P then f s else s) := by
  split
  · exact h s
  · rfl

theorem sharedUp_shift (d : Nat → ℝ) (m w i c s) :
    sharedUp m w i c (shiftF d s) = shiftF d (sharedUp m w i c s) := by
  unfold sharedUp
  dsimp only
  rw [forN_comm (shiftF d) _ (fun _ s => addK_shift d _ _ _ s),
    forN_comm (shiftF d) _ (fun _ s => addF_shift d _ _ s)]

theorem sharedDn_shift (d : Nat → ℝ) (m w i c s) :
    sharedDn m w i c (shiftF d s) = shiftF d (sharedDn m w i c s) := by
  unfold sharedDn
  dsimp only
  rw [forN_comm (shiftF d) _ (fun _ s => addK_shift d _ _ _ s),
    forN_comm (shiftF d) _ (fun _ s => addF_shift d _ _ s)]

theorem internal_shift (d : Nat → ℝ) (m w s) :
    steadyInternal m w (shiftF d s) = shiftF d (steadyInternal m w s) := by
  unfold steadyInternal
  refine ite_shift d _ _ (fun s => ?_) s
  refine forN_comm _ _ (fun i s => forN_comm _ _ (fun k s => ?_) _ _) _ _
  dsimp only
  split_ifs <;> simp only [addK_shift]

theorem shared_shift (d : Nat → ℝ) (m w s) :
    steadyShared m w (shiftF d s) = shiftF d (steadyShared m w s) := by
  unfold steadyShared
  split
  · rfl
  · dsimp only
    rw [forN_comm (shiftF d), forN_comm (shiftF d)]
    · intro i s
      unfold sharedOuter
      dsimp only
      split_ifs <;> simp only [sharedUp_shift, sharedDn_shift]
    · intro i s
      unfold sharedInner
      dsimp only
      split_ifs <;> simp only [sharedUp_shift, sharedDn_shift]

theorem corner_shift (d : Nat → ℝ) (m w s) :
    steadyCorner m w (shiftF d s) = shiftF d (steadyCorner m w s) := by
  unfold steadyCorner
  split
  · rfl
  · dsimp only
    rw [forN_comm (shiftF d), forN_comm (shiftF d)]
    · intro i s
      unfold cornerF
      dsimp only
      have a := fun (r : Nat) (g : Nat → ℝ) (s : Sys) =>
        forN_comm (shiftF d) (fun k s => s.addF r (g k)) (fun _ s => addF_shift d _ _ s) w.nBnd s
      split_ifs <;> simp only [a]
    · intro i s
      unfold cornerK
      split_ifs <;> simp only [addK_shift]

theorem forcing_shift (d : Nat → ℝ) (m s) :
    steadyForcing m (shiftF d s) = shiftF d (steadyForcing m s) := by
  unfold steadyForcing
  cases m.forcing with
  | none => rfl
  | some f => 
    refine forN_comm (shiftF d) _ (fun i s => ?_) _ _
    split_ifs <;> simp only [addF_shift]

/-- **C100.**  Assembling always gives the same matrix, whatever matrix and vector are passed; the
right-hand side is added to what the vector holds. -/
theorem C100_rhs_accumulates_partial (m : Steady) (s : Sys) :
    (computeSystem m s).K = (computeSystem m ⟨fun _ _ => 0, fun _ => 0⟩).K ∧
      ∀ r, (computeSystem m s).F r = s.F r + (computeSystem m ⟨fun _ _ => 0, fun _ => 0⟩).F r := by
  have e : (⟨fun _ _ => 0, s.F⟩ : Sys) = shiftF s.F ⟨fun _ _ => 0, fun _ => 0⟩ := by
    simp [shiftF]
  have : computeSystem m s = shiftF s.F (computeSystem m ⟨fun _ _ => 0, fun _ => 0⟩) := by
    unfold computeSystem
    dsimp only
    rw [e, forN_comm (shiftF s.F) _ (fun _ s => internal_shift _ _ _ s),
      forN_comm (shiftF s.F) _ (fun _ s => shared_shift _ _ _ s),
      forN_comm (shiftF s.F) _ (fun _ s => corner_shift _ _ _ s), forcing_shift]
  rw [this]
  exact ⟨rfl, fun r => by simp only [shiftF]; ring⟩

/-- **C100, violated.**  Assembling twice into the same matrix and vector doubles the right-hand
side, so the second system is not the first unless the right-hand side is zero. -/
theorem C100_twice_violated (m : Steady) :
    let first := computeSystem m ⟨fun _ _ => 0, fun _ => 0⟩
    (computeSystem m first).K = first.K ∧ (∀ r, (computeSystem m first).F r = 2*first.F r) ∧
      ∀ r, first.F r ≠ 0 → (computeSystem m first).F r ≠ first.F r := by
  intro first
  have h := C100_rhs_accumulates_partial m first
  have hf : ∀ r, (computeSystem m first).F r = 2*first.F r := fun r => by
    rw [h.2 r]; simp only [first]; ring
  refine ⟨h.1, hf, fun r hr he => hr ?_⟩
  have := hf r
  linarith

/-! ### Two cubes: a vertex they share on the boundary, and a corner of the first -/

namespace SteadyWitness

/-- The corner, with the faces in one order. -/
def corner : Corner :=
  { G := fun i j => if i = j then 1 else 0, face := fun k => 10 + k, vface := fun k => 10 + k
    internal := fun _ => false, fbnd := fun x => x - 10 }

theorem cornerOk : CornerOk corner id := by
  refine ⟨?_, ?_, fun _ _ => rfl, fun _ _ => rfl, fun _ h => h, fun _ _ _ _ e => e⟩
  · intro k _ k' _ e; simp [corner] at e; exact e
  · intro k _ k' _ e; simp [corner] at e; exact e

noncomputable def T0 : Nat → Fin (Witness.v.npcen + nDir Witness.v) → ℝ := Witness.solvable.choose

theorem T0_eq : trans Witness.v = some T0 := Witness.solvable.choose_spec

noncomputable def Tc : Nat → Nat → ℝ := (cornerTrans_eq cornerOk (fun _ _ => 0)).choose

theorem Tc_eq : cornerTrans corner (fun _ _ => 0) = some Tc :=
  (cornerTrans_eq cornerOk (fun _ _ => 0)).choose_spec.1

noncomputable def edge (p : ℝ) : SVert :=
  { isLocal := true, nFaces := 5, nBnd := 4, nCells := 2, cell := fun k => k, face := fun i => i
    T := fun i j => if h : j < Witness.v.npcen + nDir Witness.v then T0 i ⟨j, h⟩ else 0
    bndP := fun _ => p, subFace := fun _ => 0 }

noncomputable def cvert (p : ℝ) : SVert :=
  { isLocal := true, nFaces := 3, nBnd := 3, nCells := 1, cell := fun _ => 0, face := fun i => 5 + i
    T := Tc, bndP := fun _ => p, subFace := fun k => 5 + k }

noncomputable def verts (p : ℝ) : Nat → SVert
  | 0 => edge p
  | _ => cvert p

/-- Faces 0 to 4 are those of the shared vertex, the others those of the corner. -/
def faces : Nat → MFace
  | 0 => ⟨0, 1, true⟩ | 1 => ⟨0, -1, true⟩ | 2 => ⟨-1, 0, true⟩ | 3 => ⟨1, -1, true⟩
  | 4 => ⟨-1, 1, true⟩ | _ => ⟨0, -1, true⟩

noncomputable def m (p : ℝ) (f : Option (Nat → ℝ)) : Steady :=
  { numVertices := 2, numCells := 2, vert := verts p, face := faces, isLocal := fun _ => true
    gid := fun c => c, vol := fun _ => 1, forcing := f }

theorem ok (p f) : SteadyOk (m p f) 2 := by
  refine ⟨?_, ?_, ?_, ?_⟩
  · intro v hv k hk
    change v < 2 at hv
    interval_cases v
    · exact hk
    · exact Nat.zero_lt_two
  · intro v hv
    change v < 2 at hv
    interval_cases v <;> simp [m, verts, edge, cvert, faces]
  · intro v hv i hi
    change v < 2 at hv
    interval_cases v
    · change i < 1 at hi
      have : i = 0 := by omega
      subst this
      simp [m, verts, edge, cvert, faces]
    · change i < 0 at hi; omega
  · intro v hv h1 h2
    change v < 2 at hv
    interval_cases v
    · change 2 ≤ 1 at h2; omega
    · refine ⟨rfl, rfl, fun k hk => Or.inl ?_⟩
      interval_cases k <;> simp [m, verts, edge, cvert, faces]

theorem one (p f) : OneProcess (m p f) 2 := by
  refine ⟨fun _ => rfl, fun c hc => hc, ?_⟩
  intro v hv i hi
  change v < 2 at hv
  interval_cases v
  · change i < 5 at hi
    interval_cases i <;> simp [m, verts, edge, cvert, faces]
  · change i < 3 at hi
    interval_cases i <;> simp [m, verts, edge, cvert, faces]

theorem regular (p f) : Regular ((m p f).vert 0) :=
  Or.inr (by simp [m, verts, edge, cvert, faces])

theorem fromTrans (p f) : ∀ v < (m p f).numVertices, ¬IsCorner ((m p f).vert v) →
    FromTrans ((m p f).vert v) := by
  intro v hv hc
  change v < 2 at hv
  interval_cases v
  · refine ⟨Witness.v, T0, Witness.wf, T0_eq, rfl, rfl, rfl, rfl, fun i _ j => ?_⟩
    exact dif_pos j.2
  · exact absurd (show IsCorner ((m p f).vert 1) by simp [m, verts, edge, cvert, faces]) hc

theorem fromCorner : FromCorner (m 0 none) (cvert 0) corner (fun _ => 0) :=
  ⟨cornerOk, Tc_eq, fun k hk => by interval_cases k <;> simp [m, verts, edge, cvert, faces], fun _ _ => rfl⟩

end SteadyWitness

/-- A constant pressure solves the system of the two cubes. -/
example : ∀ r, unbalance 2 (computeSystem (SteadyWitness.m 3 none) ⟨fun _ _ => 7, fun _ => 0⟩)
    (fun _ => 3) r = 0 :=
  fun r => C60_constant (SteadyWitness.ok 3 none) rfl (SteadyWitness.fromTrans 3 none) 3
    (fun v hv k _ => by
      change v < 2 at hv
      interval_cases v <;> rfl) _ r rfl

/-- With a source of 1 in both cells the rows sum to what crosses the boundary minus 2. -/
example : ∃ b, ∑ r ∈ range 2, unbalance 2 (computeSystem (SteadyWitness.m 0 (some fun _ => 1))
    ⟨fun _ _ => 0, fun _ => 0⟩) (fun _ => 3) r = b - 2 := by
  rw [C60_balance (SteadyWitness.ok _ _) (SteadyWitness.one _ _)]
  exact ⟨_, by simp [SteadyWitness.m]; rfl⟩

/-- The corner of a cube: the flux into the cell should be -3 and is -1. -/
example : ∑ i ∈ range 3, cornerIn (SteadyWitness.m 0 none) (SteadyWitness.cvert 0) (fun _ => 1) i = -1 ∧
    -∑ f ∈ range 3, cornerFlux SteadyWitness.corner 1 (fun _ => 0) f = -3 ∧
    ∑ i ∈ range 3, (SteadyWitness.corner.G i 0 + SteadyWitness.corner.G i 1) ≠ 0 := by
  refine ⟨?_, ?_, ?_⟩
  · rw [corner_actual SteadyWitness.fromCorner]
    simp [SteadyWitness.corner, SteadyWitness.cvert]
  · simp only [cornerFlux, sum_range_succ, sum_range_zero, SteadyWitness.corner]; norm_num
  · simp [sum_range_succ, SteadyWitness.corner]

/-- A source makes the right-hand side differ from zero, so assembling again changes it. -/
example : (computeSystem (SteadyWitness.m 0 (some fun _ => 1)) ⟨fun _ _ => 0, fun _ => 0⟩).F 0 ≠ 0 := by
  have h := C60_rows (SteadyWitness.ok 0 (some fun _ => 1)) (fun _ => 0) 0 ⟨fun _ _ => 0, fun _ => 0⟩
  have e : ∀ w : SVert, (∀ k, w.bndP k = 0) → ∀ i,
      throughSub (SteadyWitness.m 0 (some fun _ => 1)) w (fun _ => 0) i = 0 := by
    intro w hw i; simp [throughSub, hw]
  have e0 := e (SteadyWitness.edge 0) (fun _ => rfl)
  have e1 := e (SteadyWitness.cvert 0) (fun _ => rfl)
  have c1 : ∀ i, cornerIn (SteadyWitness.m 0 (some fun _ => 1)) (SteadyWitness.cvert 0) (fun _ => 0) i = 0 := by
    intro i; simp [cornerIn, SteadyWitness.cvert]
  have c0 : ∀ i, cornerIn (SteadyWitness.m 0 (some fun _ => 1)) (SteadyWitness.edge 0) (fun _ => 0) i = 0 := by
    intro i; simp [cornerIn, SteadyWitness.edge]
  have src : sourceIn (SteadyWitness.m 0 (some fun _ => 1)) 0 = 1 := by
    change ∑ i ∈ range 2, (if Owns (SteadyWitness.m 0 (some fun _ => 1)) i 0 then (1:ℝ)*1 else 0) = 1
    rw [sum_range_succ, sum_range_succ, sum_range_zero, if_pos ⟨rfl, rfl⟩,
      if_neg (fun h => absurd h.2 Nat.one_ne_zero)]
    norm_num
  rw [src] at h
  simp only [unbalance, mul_zero, sum_const_zero, zero_sub] at h
  have z : ∑ v ∈ range (SteadyWitness.m 0 (some fun _ => 1)).numVertices, (
        (if Regular ((SteadyWitness.m 0 (some fun _ => 1)).vert v) then
          ∑ i ∈ range ((SteadyWitness.m 0 (some fun _ => 1)).vert v).nFaces,
            subfaceIn (SteadyWitness.m 0 (some fun _ => 1)) ((SteadyWitness.m 0 (some fun _ => 1)).vert v)
              (fun _ => 0) 0 i else 0) +
        if IsCorner ((SteadyWitness.m 0 (some fun _ => 1)).vert v) ∧
            Owns (SteadyWitness.m 0 (some fun _ => 1)) (((SteadyWitness.m 0 (some fun _ => 1)).vert v).cell 0) 0 then
          ∑ i ∈ range 3, cornerIn (SteadyWitness.m 0 (some fun _ => 1))
            ((SteadyWitness.m 0 (some fun _ => 1)).vert v) (fun _ => 0) i else 0) = 0 := by
    refine sum_eq_zero fun v hv => ?_
    have hv : v < 2 := mem_range.1 hv
    interval_cases v
    · simp only [show (SteadyWitness.m 0 (some fun _ => 1)).vert 0 = SteadyWitness.edge 0 from rfl,
        subfaceIn, e0, c0]
      simp
    · simp only [show (SteadyWitness.m 0 (some fun _ => 1)).vert 1 = SteadyWitness.cvert 0 from rfl,
        subfaceIn, e1, c1]
      simp
  rw [z] at h
  intro h'
  rw [h'] at h
  norm_num at h

end TDy.Mpfao.Props
