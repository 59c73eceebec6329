import Verif.Spec.MpfaoFlux
import Verif.Proofs.Fvtpf

/-! # Closed forms of the loops of the MPFA-O residual and Jacobian -/

namespace TDy.Mpfao.Proofs

open TDy.Mpfao TDy.Mpfao.Spec Finset
open TDy.Fvtpf (addAt addMat)
open TDy.Fvtpf.Proofs (addAt_apply addMat_apply)

noncomputable section

/-- A loop that adds `g i` to every entry. -/
theorem forN_add {α : Type*} (n : Nat) (body : Nat → (α → ℝ) → (α → ℝ)) (g : Nat → α → ℝ)
    (h : ∀ i r j, i < n → body i r j = r j + g i j) (r : α → ℝ) (j : α) :
    forN n body r j = r j + ∑ i ∈ range n, g i j := by
  induction n with
  | zero => simp [forN]
  | succ n ih =>
    rw [sum_range_succ, ← add_assoc, ← ih (fun i r j hi => h i r j (by omega))]
    exact h n _ j (by omega)

/-- The same for matrices. -/
theorem forN_addM {α β : Type*} (n : Nat) (body : Nat → (α → β → ℝ) → (α → β → ℝ))
    (g : Nat → α → β → ℝ) (h : ∀ i r a b, i < n → body i r a b = r a b + g i a b)
    (r : α → β → ℝ) (a : α) (b : β) :
    forN n body r a b = r a b + ∑ i ∈ range n, g i a b := by
  induction n with
  | zero => simp [forN]
  | succ n ih =>
    rw [sum_range_succ, ← add_assoc, ← ih (fun i r a b hi => h i r a b (by omega))]
    exact h n _ a b (by omega)

/-- What a subface with flux `q` adds to entry `j`. -/
def fluxTerm (c : Ctx) (f : MFace) (q : ℝ) (j : Nat) : ℝ :=
  (if 0 ≤ f.up ∧ c.isLocal f.up.toNat = true ∧ j = f.up.toNat then q else 0) +
  (if 0 ≤ f.dn ∧ c.isLocal f.dn.toNat = true ∧ j = f.dn.toNat then -q else 0)

theorem scatterFlux_apply (c : Ctx) (f : MFace) (q : ℝ) (r : Nat → ℝ) (j : Nat) :
    scatterFlux c f q r j = r j + fluxTerm c f q j := by
  unfold scatterFlux fluxTerm
  split_ifs <;> simp_all [addAt_apply]

/-- Is row `i` of vertex `v` worked on by this rank? -/
def active (c : Ctx) (v i : Nat) : Prop :=
  (c.vert v).isLocal = true ∧ (c.face ((c.vert v).face i)).isLocal = true

instance (c : Ctx) (v i : Nat) : Decidable (active c v i) := by unfold active; infer_instance

theorem vertexLoop_apply (c : Ctx) (q : Nat → Nat → ℝ) (r : Nat → ℝ) (j : Nat) :
    vertexLoop c q r j = r j + ∑ v ∈ range c.numVertices, ∑ i ∈ range (c.vert v).nRows,
      if active c v i then fluxTerm c (faceOf c v i) (q v i) j else 0 := by
  unfold vertexLoop
  apply forN_add (g := fun v j => ∑ i ∈ range (c.vert v).nRows,
      if active c v i then fluxTerm c (faceOf c v i) (q v i) j else 0)
  intro v r j _
  cases hv : (c.vert v).isLocal
  · simp [active, hv]
  · simp only [Bool.not_true, Bool.false_eq_true, if_false]
    apply forN_add (g := fun i j =>
      if active c v i then fluxTerm c (faceOf c v i) (q v i) j else 0)
    intro i r j _
    cases hf : (c.face ((c.vert v).face i)).isLocal
    · simp [active, hf]
    · simp [active, hv, hf, scatterFlux_apply, faceOf]

/-- A loop over the cells that adds `g i` to entry `i` of the local cells. -/
theorem cellLoop_apply (n : Nat) (loc : Nat → Bool) (body : Nat → (Nat → ℝ) → (Nat → ℝ))
    (g : Nat → ℝ)
    (h : ∀ i r j, body i r j = if loc i = true then r j + (if j = i then g i else 0) else r j)
    (r : Nat → ℝ) (j : Nat) :
    forN n body r j = r j + if j < n ∧ loc j = true then g j else 0 := by
  rw [forN_add n body (fun i j => if loc i = true then (if j = i then g i else 0) else 0)]
  · congr 1
    by_cases hj : j < n
    · rw [sum_eq_single j]
      · simp [hj]
      · intro b _ hb; simp [Ne.symm hb]
      · intro hn; exact absurd (mem_range.2 hj) hn
    · rw [if_neg (by tauto)]
      apply sum_eq_zero
      intro i hi
      have : j ≠ i := by rintro rfl; exact hj (mem_range.1 hi)
      simp [this]
  · intro i r j _
    rw [h]
    split <;> simp

theorem tsCellLoop_apply (c : Ctx) (dpdt r : Nat → ℝ) (j : Nat) :
    tsCellLoop c dpdt r j = r j + if j < c.numCells ∧ c.isLocal j = true
      then dmassdP c j*dpdt j*c.vol j - c.source j*c.vol j else 0 := by
  unfold tsCellLoop
  apply cellLoop_apply c.numCells c.isLocal _
    (fun j => dmassdP c j*dpdt j*c.vol j - c.source j*c.vol j)
  intro i r j
  cases hl : c.isLocal i
  · simp
  · simp only [Bool.not_true, Bool.false_eq_true, if_false, addAt_apply, if_true]
    split <;> ring

theorem snesCellLoop_apply (c : Ctx) (dtime : ℝ) (accumPrev r : Nat → ℝ) (j : Nat) :
    snesCellLoop c dtime accumPrev r j = r j + if j < c.numCells ∧ c.isLocal j = true
      then snesAccum c dtime j - accumPrev j - c.source j else 0 := by
  unfold snesCellLoop
  apply cellLoop_apply c.numCells c.isLocal _
    (fun j => snesAccum c dtime j - accumPrev j - c.source j)
  intro i r j
  cases hl : c.isLocal i
  · simp
  · simp only [Bool.not_true, Bool.false_eq_true, if_false, addAt_apply, if_true]
    split <;> ring

theorem transientCellLoop_apply (c : Ctx) (dmdt r : Nat → ℝ) (j : Nat) :
    transientCellLoop c dmdt r j = r j + if j < c.numCells ∧ c.isLocal j = true
      then dmdt j*c.vol j - c.source j*c.vol j else 0 := by
  unfold transientCellLoop
  apply cellLoop_apply c.numCells c.isLocal _
    (fun j => dmdt j*c.vol j - c.source j*c.vol j)
  intro i r j
  cases hl : c.isLocal i
  · simp
  · simp only [Bool.not_true, Bool.false_eq_true, if_false, addAt_apply, if_true]
    split <;> ring

/-! ## Transmissibility matrix -/

theorem addRow_apply (w : Vert) (i : Nat) (A : Nat → Nat → ℝ) (a b : Nat) :
    addRow w i A a b = A a b + ∑ j ∈ range w.nCols,
      if a = wslot w i ∧ b = w.col j then w.M i j else 0 := by
  unfold addRow
  apply forN_addM (g := fun j a b => if a = wslot w i ∧ b = w.col j then w.M i j else 0)
  intro j A a b _
  rw [addMat_apply]

theorem transMat_apply (c : Ctx) (a b : Nat) :
    transMat c a b = ∑ v ∈ range c.numVertices, ∑ i ∈ range (c.vert v).nRows,
      if (c.vert v).isLocal = true then
        ∑ j ∈ range (c.vert v).nCols,
          if a = wslot (c.vert v) i ∧ b = (c.vert v).col j then (c.vert v).M i j else 0
      else 0 := by
  unfold transMat
  rw [forN_addM (g := fun v a b => ∑ i ∈ range (c.vert v).nRows,
      if (c.vert v).isLocal = true then
        ∑ j ∈ range (c.vert v).nCols,
          if a = wslot (c.vert v) i ∧ b = (c.vert v).col j then (c.vert v).M i j else 0
      else 0)]
  · simp
  · intro v A a b _
    cases hv : (c.vert v).isLocal
    · simp
    · simp only [Bool.not_true, Bool.false_eq_true, if_false, if_true]
      apply forN_addM (g := fun i a b => ∑ j ∈ range (c.vert v).nCols,
        if a = wslot (c.vert v) i ∧ b = (c.vert v).col j then (c.vert v).M i j else 0)
      intro i A a b _
      rw [addRow_apply]

/-! ## Jacobian -/

theorem addJacRow_apply (c : Ctx) (id : ℤ) (n : Nat) (cell : Nat → Nat) (val : Nat → ℝ)
    (B : Nat → Nat → ℝ) (a b : Nat) :
    addJacRow c id n cell val B a b = B a b +
      if 0 ≤ id ∧ c.isLocal id.toNat = true ∧ a = id.toNat then
        ∑ k ∈ range n, if b = cell k then val k else 0 else 0 := by
  unfold addJacRow
  by_cases h : 0 ≤ id
  · simp only [h, if_true, true_and]
    rw [forN_addM (g := fun k a b => if c.isLocal id.toNat = true ∧ a = id.toNat then
      (if b = cell k then val k else 0) else 0)]
    · congr 1
      by_cases h2 : c.isLocal id.toNat = true ∧ a = id.toNat
      · simp [h2]
      · simp [h2]
    · intro k B a b _
      cases hl : c.isLocal id.toNat
      · simp
      · simp only [if_true, addMat_apply, true_and]
        by_cases ha : a = id.toNat <;> by_cases hb : b = cell k <;> simp [ha, hb]
  · simp [h]

/-- What row `i` of vertex `v` adds to the Jacobian. -/
def jacTerm (c : Ctx) (junk : Nat → Nat → ℝ) (v i a b : Nat) : ℝ :=
  let w := c.vert v
  let f := faceOf c v i
  if c.bc = .neumann ∧ (f.up < 0 ∨ f.dn < 0) then 0
  else
    (if 0 ≤ f.up ∧ c.isLocal f.up.toNat = true ∧ a = f.up.toNat then
      ∑ k ∈ range w.nCells, if b = w.cell k then jacValue c junk v i k else 0 else 0) +
    (if 0 ≤ f.dn ∧ c.isLocal f.dn.toNat = true ∧ a = f.dn.toNat then
      ∑ k ∈ range w.nCells, if b = w.cell k then -jacValue c junk v i k else 0 else 0)

theorem jacSubface_apply (c : Ctx) (junk : Nat → Nat → ℝ) (v i : Nat) (B : Nat → Nat → ℝ)
    (a b : Nat) : jacSubface c junk v i B a b = B a b + jacTerm c junk v i a b := by
  unfold jacSubface jacTerm
  by_cases h : c.bc = .neumann ∧ ((c.face ((c.vert v).face i)).up < 0 ∨
      (c.face ((c.vert v).face i)).dn < 0)
  · rw [if_pos h, if_pos h, add_zero]
  · rw [if_neg h, if_neg h, addJacRow_apply, addJacRow_apply, add_assoc]

theorem ijacobianVertices_apply (c : Ctx) (junk : Nat → Nat → ℝ) (B : Nat → Nat → ℝ) (a b : Nat) :
    ijacobianVertices c junk B a b = B a b +
      ∑ v ∈ range c.numVertices, ∑ i ∈ range (c.vert v).nRows, jacTerm c junk v i a b := by
  unfold ijacobianVertices
  apply forN_addM (g := fun v a b => ∑ i ∈ range (c.vert v).nRows, jacTerm c junk v i a b)
  intro v B a b _
  apply forN_addM (g := fun i a b => jacTerm c junk v i a b)
  intro i B a b _
  exact jacSubface_apply c junk v i B a b

/-- A loop over the cells that adds `g i` to the diagonal entry of the local cells. -/
theorem diagLoop_apply (n : Nat) (loc : Nat → Bool)
    (body : Nat → (Nat → Nat → ℝ) → (Nat → Nat → ℝ)) (g : Nat → ℝ)
    (h : ∀ i B, body i B = if !loc i then B else addMat B i i (g i))
    (B : Nat → Nat → ℝ) (a b : Nat) :
    forN n body B a b = B a b + if a = b ∧ a < n ∧ loc a = true then g a else 0 := by
  rw [forN_addM n body (fun i a b => if loc i = true then (if a = i ∧ b = i then g i else 0) else 0)]
  · congr 1
    by_cases hab : a = b ∧ a < n
    · obtain ⟨rfl, hj⟩ := hab
      rw [sum_eq_single a]
      · simp [hj]
      · intro b _ hb; simp [Ne.symm hb]
      · intro hn; exact absurd (mem_range.2 hj) hn
    · rw [if_neg (by tauto)]
      apply sum_eq_zero
      intro i hi
      have : ¬ (a = i ∧ b = i) := by
        rintro ⟨rfl, rfl⟩; exact hab ⟨rfl, mem_range.1 hi⟩
      simp [this]
  · intro i r a b _
    rw [h]
    cases loc i <;> simp [addMat_apply]

theorem tsJacobian_apply (c : Ctx) (junk : Nat → Nat → ℝ) (shift : ℝ) (dpdt : Nat → ℝ)
    (a b : Nat) :
    tsJacobian c junk shift dpdt a b =
      (∑ v ∈ range c.numVertices, ∑ i ∈ range (c.vert v).nRows, jacTerm c junk v i a b) +
      if a = b ∧ a < c.numCells ∧ c.isLocal a = true then tsJacAccum c shift dpdt a else 0 := by
  unfold tsJacobian tsJacCellLoop
  rw [diagLoop_apply c.numCells c.isLocal _ (tsJacAccum c shift dpdt) (fun _ _ => rfl),
    ijacobianVertices_apply]
  simp

theorem snesJacobian_apply (c : Ctx) (junk : Nat → Nat → ℝ) (dtime : ℝ) (a b : Nat) :
    snesJacobian c junk dtime a b =
      (∑ v ∈ range c.numVertices, ∑ i ∈ range (c.vert v).nRows, jacTerm c junk v i a b) +
      if a = b ∧ a < c.numCells ∧ c.isLocal a = true
      then dmassdP c a*c.vol a*(1.0/dtime) else 0 := by
  unfold snesJacobian snesJacCellLoop
  rw [diagLoop_apply c.numCells c.isLocal _ (fun i => dmassdP c i*c.vol i*(1.0/dtime))
    (fun _ _ => rfl), ijacobianVertices_apply]
  simp

end

end TDy.Mpfao.Proofs
