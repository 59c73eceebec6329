import Verif.Model.Fvtpf
import Mathlib.Algebra.BigOperators.Group.Finset.Basic
import Mathlib.Algebra.BigOperators.Ring.Finset
import Mathlib.Tactic.Linarith
import Mathlib.Tactic.Ring
import Mathlib.Tactic.FieldSimp
import Mathlib.Tactic.Positivity

/-! # Closed forms of the loops of the two-point flux method -/

namespace TDy.Fvtpf.Proofs

open TDy.Fvtpf Finset

noncomputable section

theorem addAt_apply (r : Nat → ℝ) (i : Nat) (v : ℝ) (j : Nat) :
    addAt r i v j = r j + if j = i then v else 0 := by
  unfold addAt wr; split
  · rename_i h; rw [h]
  · rw [add_zero]

theorem addMat_apply (B : Nat → Nat → ℝ) (i j : Nat) (v : ℝ) (a b : Nat) :
    addMat B i j v a b = B a b + if a = i ∧ b = j then v else 0 := by
  unfold addMat wr
  by_cases h : a = i
  · subst h
    by_cases h' : b = j
    · subst h'; simp
    · simp [h']
  · simp [h]

/-- What an internal face adds to the residual of cell `j`. -/
def internalTerm (c : Ctx) (junk : Nat → ℝ) (i j : Nat) : ℝ :=
  let f := c.face i
  if f.isLocal = true ∧ f.isInternal = true then
    (if 0 ≤ f.up ∧ c.isLocal f.up.toNat = true ∧ j = f.up.toNat
      then richardsResidual c f (junk i) else 0) +
    (if 0 ≤ f.dn ∧ c.isLocal f.dn.toNat = true ∧ j = f.dn.toNat
      then -richardsResidual c f (junk i) else 0)
  else 0

theorem internalLoop_apply (c : Ctx) (junk r : Nat → ℝ) (j : Nat) :
    internalLoop c junk r j = r j + ∑ i ∈ range c.numFaces, internalTerm c junk i j := by
  unfold internalLoop
  induction c.numFaces with
  | zero => simp [forN]
  | succ n ih =>
    rw [sum_range_succ, ← add_assoc, ← ih]
    simp only [forN, internalTerm]
    cases hl : (c.face n).isLocal <;> cases hi : (c.face n).isInternal
    · simp
    · simp
    · simp
    · simp only [Bool.not_true, Bool.false_eq_true, if_false, and_self, if_true]
      split_ifs <;> simp_all [addAt_apply]

/-- What a boundary face with flux `res` adds to the residual of cell `j`. -/
def boundaryTerm (c : Ctx) (i j : Nat) : ℝ :=
  let f := c.face i
  if f.isLocal = true ∧ f.isInternal = false ∧ f.bc ≠ .neumann then
    (if j = f.dn.toNat then -((boundaryFlux c f).getD 0) else 0)
  else 0

theorem boundaryLoop_apply (c : Ctx) (r R : Nat → ℝ) (h : boundaryLoop c r = some R) (j : Nat) :
    R j = r j + ∑ i ∈ range c.numFaces, boundaryTerm c i j := by
  unfold boundaryLoop at h
  revert h R
  induction c.numFaces with
  | zero => intro R h; simp [forN] at h; simp [h]
  | succ n ih =>
    intro R h
    rw [sum_range_succ, ← add_assoc]
    simp only [forN] at h
    revert h ih
    generalize forN n _ _ = prev
    intro ih h
    generalize (∑ i ∈ range n, boundaryTerm c i j) = s at ih ⊢
    simp only [boundaryTerm]
    cases hl : (c.face n).isLocal <;> cases hi : (c.face n).isInternal
    · simp [hl] at h; simp [ih R h]
    · simp [hl] at h; simp [ih R h]
    · by_cases hb : (c.face n).bc = .neumann
      · simp [hl, hi, hb] at h; simp [ih R h, hb]
      · simp only [hl, hi, hb, Bool.not_true, Bool.false_eq_true, if_false] at h
        cases prev with
        | none => simp at h
        | some p =>
          cases hf : boundaryFlux c (c.face n) with
          | none => simp [hf] at h
          | some v =>
            simp only [hf, Option.bind_some, Option.map_some, Option.some.injEq] at h
            rw [← ih p rfl, ← h, addAt_apply]
            simp [hb]
    · simp [hl, hi] at h; simp [ih R h]

/-- The loop over boundary faces is defined iff every flux it needs is. -/
theorem boundaryLoop_isSome (c : Ctx) (r : Nat → ℝ) :
    (boundaryLoop c r).isSome = true ↔ ∀ i < c.numFaces, (c.face i).isLocal = true →
      (c.face i).isInternal = false → (c.face i).bc ≠ .neumann →
      (boundaryFlux c (c.face i)).isSome = true := by
  unfold boundaryLoop
  induction c.numFaces with
  | zero => simp [forN]
  | succ n ih =>
    simp only [forN]
    revert ih
    generalize forN n _ _ = prev
    intro ih
    have split : (∀ i < n + 1, (c.face i).isLocal = true →
        (c.face i).isInternal = false → (c.face i).bc ≠ .neumann →
        (boundaryFlux c (c.face i)).isSome = true) ↔ prev.isSome = true ∧
        ((c.face n).isLocal = true →
        (c.face n).isInternal = false → (c.face n).bc ≠ .neumann →
        (boundaryFlux c (c.face n)).isSome = true) := by
      rw [ih]
      constructor
      · intro h; exact ⟨fun i hi => h i (by omega), h n (by omega)⟩
      · rintro ⟨h1, h2⟩ i hi
        rcases Nat.lt_succ_iff_lt_or_eq.1 hi with h | h
        · exact h1 i h
        · rw [h]; exact h2
    rw [split]
    cases hl : (c.face n).isLocal <;> cases hi : (c.face n).isInternal
    · simp
    · simp
    · by_cases hb : (c.face n).bc = .neumann
      · simp [hb]
      · cases prev <;> cases hf : boundaryFlux c (c.face n) <;> simp_all
    · simp

/-- What the last loop adds. -/
theorem cellLoop_apply (c : Ctx) (dtime : ℝ) (accumPrev r : Nat → ℝ) (j : Nat) :
    cellLoop c dtime accumPrev r j = r j +
      if j < c.numCells ∧ c.isLocal j = true
      then accumulation c dtime j - accumPrev j - c.source j else 0 := by
  unfold cellLoop
  induction c.numCells with
  | zero => simp [forN]
  | succ n ih =>
    simp only [forN]
    cases hl : c.isLocal n
    · simp only [Bool.not_false, if_true, ih]
      by_cases h : j = n
      · subst h; simp [hl]
      · have : (j < n + 1) ↔ j < n := by omega
        simp [this]
    · simp only [Bool.not_true, Bool.false_eq_true, if_false, addAt_apply, ih]
      by_cases h : j = n
      · subst h; simp [hl]; ring
      · have : (j < n + 1) ↔ j < n := by omega
        simp [this, h]

/-- The residual of every cell. -/
theorem snesFunction_apply (c : Ctx) (dtime : ℝ) (accumPrev junk R : Nat → ℝ)
    (h : snesFunction c dtime accumPrev junk = some R) (j : Nat) :
    R j = ∑ i ∈ range c.numFaces, internalTerm c junk i j +
      ∑ i ∈ range c.numFaces, boundaryTerm c i j +
      if j < c.numCells ∧ c.isLocal j = true
      then accumulation c dtime j - accumPrev j - c.source j else 0 := by
  unfold snesFunction at h
  rw [Option.map_eq_some_iff] at h
  obtain ⟨R1, h1, h2⟩ := h
  rw [← h2, cellLoop_apply, boundaryLoop_apply c _ R1 h1, internalLoop_apply]
  simp

/-! ## Jacobian -/

/-- What an internal face adds to the Jacobian. -/
def jacInternalTerm (c : Ctx) (junk : Nat → ℝ × ℝ) (i a b : Nat) : ℝ :=
  let f := c.face i
  let J := richardsJacobian c f (junk i)
  if f.isLocal = true ∧ f.isInternal = true then
    (if 0 ≤ f.up ∧ c.isLocal f.up.toNat = true ∧ a = f.up.toNat then
      (if b = f.up.toNat then J.1 else 0) + (if b = f.dn.toNat then J.2 else 0) else 0) +
    (if 0 ≤ f.dn ∧ c.isLocal f.dn.toNat = true ∧ a = f.dn.toNat then
      (if b = f.dn.toNat then -J.2 else 0) + (if b = f.up.toNat then -J.1 else 0) else 0)
  else 0

theorem jacInternalLoop_apply (c : Ctx) (junk : Nat → ℝ × ℝ) (B : Nat → Nat → ℝ) (a b : Nat) :
    jacInternalLoop c junk B a b = B a b + ∑ i ∈ range c.numFaces, jacInternalTerm c junk i a b := by
  unfold jacInternalLoop
  induction c.numFaces with
  | zero => simp [forN]
  | succ n ih =>
    rw [sum_range_succ, ← add_assoc, ← ih]
    simp only [forN, jacInternalTerm]
    cases hl : (c.face n).isLocal <;> cases hi : (c.face n).isInternal
    · simp
    · simp
    · simp
    · simp only [Bool.not_true, Bool.false_eq_true, if_false, and_self, if_true]
      generalize forN n _ B = p
      generalize (richardsJacobian c (c.face n) (junk n)) = J
      generalize (c.face n).up.toNat = u
      generalize (c.face n).dn.toNat = d
      have hu : (0 ≤ (c.face n).up ∧ c.isLocal u = true ∧ a = u) ↔
          (0 ≤ (c.face n).up ∧ c.isLocal u = true) ∧ a = u := by tauto
      have hd : (0 ≤ (c.face n).dn ∧ c.isLocal d = true ∧ a = d) ↔
          (0 ≤ (c.face n).dn ∧ c.isLocal d = true) ∧ a = d := by tauto
      rw [if_congr hu rfl rfl, if_congr hd rfl rfl]
      by_cases h1 : 0 ≤ (c.face n).up ∧ c.isLocal u = true <;>
      by_cases h2 : 0 ≤ (c.face n).dn ∧ c.isLocal d = true <;>
      by_cases h3 : a = u <;> by_cases h4 : a = d <;>
      simp only [h1, h2, if_true, if_false, true_and, false_and, addMat_apply, h3, h4, add_zero,
        zero_add] <;> (try subst h3) <;> (try subst h4) <;>
      simp_all [add_assoc]

/-- What a boundary face adds to the Jacobian. -/
def jacBoundaryTerm (c : Ctx) (junk : Nat → ℝ) (i a b : Nat) : ℝ :=
  let f := c.face i
  if f.isLocal = true ∧ f.isInternal = false ∧ f.bc ≠ .neumann then
    (if 0 ≤ f.dn ∧ c.isLocal f.dn.toNat = true ∧ a = f.dn.toNat ∧ b = f.dn.toNat
      then -((boundaryJac c f (junk i)).getD 0) else 0)
  else 0

theorem jacBoundaryLoop_apply (c : Ctx) (junk : Nat → ℝ) (B B' : Nat → Nat → ℝ)
    (h : jacBoundaryLoop c junk B = some B') (a b : Nat) :
    B' a b = B a b + ∑ i ∈ range c.numFaces, jacBoundaryTerm c junk i a b := by
  unfold jacBoundaryLoop at h
  revert h B'
  induction c.numFaces with
  | zero => intro R h; simp [forN] at h; simp [h]
  | succ n ih =>
    intro R h
    rw [sum_range_succ, ← add_assoc]
    simp only [forN] at h
    revert h ih
    generalize forN n _ _ = prev
    intro ih h
    generalize (∑ i ∈ range n, jacBoundaryTerm c junk i a b) = s at ih ⊢
    simp only [jacBoundaryTerm]
    cases hl : (c.face n).isLocal <;> cases hi : (c.face n).isInternal
    · simp [hl] at h; simp [ih R h]
    · simp [hl] at h; simp [ih R h]
    · by_cases hb : (c.face n).bc = .neumann
      · simp [hl, hi, hb] at h; simp [ih R h, hb]
      · simp only [hl, hi, hb, Bool.not_true, Bool.false_eq_true, if_false] at h
        cases prev with
        | none => simp at h
        | some p =>
          cases hf : boundaryJac c (c.face n) (junk n) with
          | none => simp [hf] at h
          | some v =>
            simp only [hf, Option.bind_some, Option.map_some, Option.some.injEq] at h
            rw [← ih p rfl, ← h]
            by_cases hd : 0 ≤ (c.face n).dn ∧ c.isLocal (c.face n).dn.toNat = true
            · simp [hb, hd, addMat_apply]
            · simp only [hd, if_false]
              have : ¬ (0 ≤ (c.face n).dn ∧ c.isLocal (c.face n).dn.toNat = true ∧
                a = (c.face n).dn.toNat ∧ b = (c.face n).dn.toNat) := by tauto
              simp [this]
    · simp [hl, hi] at h; simp [ih R h]

theorem jacCellLoop_apply (c : Ctx) (dtime : ℝ) (B : Nat → Nat → ℝ) (a b : Nat) :
    jacCellLoop c dtime B a b = B a b +
      if a = b ∧ a < c.numCells ∧ c.isLocal a = true then jacobianAccumulation c dtime a
      else 0 := by
  unfold jacCellLoop
  induction c.numCells with
  | zero => simp [forN]
  | succ n ih =>
    simp only [forN]
    cases hl : c.isLocal n
    · simp only [Bool.not_false, if_true, ih]
      by_cases h : a = n
      · subst h; simp [hl]
      · have : (a < n + 1) ↔ a < n := by omega
        simp [this]
    · simp only [Bool.not_true, Bool.false_eq_true, if_false, addMat_apply, ih]
      by_cases h : a = n
      · subst h
        by_cases hb : a = b
        · subst hb; simp [hl]
        · have : ¬ b = a := fun e => hb e.symm
          simp [hb, this]
      · have : (a < n + 1) ↔ a < n := by omega
        simp [this, h]

theorem snesJacobian_apply (c : Ctx) (dtime : ℝ) (junk : Nat → ℝ × ℝ) (junkB : Nat → ℝ)
    (B : Nat → Nat → ℝ) (h : snesJacobian c dtime junk junkB = some B) (a b : Nat) :
    B a b = ∑ i ∈ range c.numFaces, jacInternalTerm c junk i a b +
      ∑ i ∈ range c.numFaces, jacBoundaryTerm c junkB i a b +
      if a = b ∧ a < c.numCells ∧ c.isLocal a = true then jacobianAccumulation c dtime a
      else 0 := by
  unfold snesJacobian at h
  rw [Option.map_eq_some_iff] at h
  obtain ⟨R1, h1, h2⟩ := h
  rw [← h2, jacCellLoop_apply, jacBoundaryLoop_apply c _ _ R1 h1, jacInternalLoop_apply]
  simp

end

end TDy.Fvtpf.Proofs
