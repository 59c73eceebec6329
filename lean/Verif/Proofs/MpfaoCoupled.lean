import Verif.Spec.MpfaoCoupled
import Verif.Proofs.MpfaoFlux

/-! # Closed forms of the loops of the coupled modes -/

namespace TDy.Mpfao.Proofs

open TDy.Mpfao TDy.Mpfao.Spec Finset
open TDy.Fvtpf (addAt addMat)
open TDy.Fvtpf.Proofs (addAt_apply addMat_apply)

noncomputable section

theorem scatterFlux2_apply (c : Ctx) (f : MFace) (a b : ℝ) (r : Nat → ℝ) (k : Nat) :
    scatterFlux2 c f a b r k = r k +
      if k % 2 = 0 then fluxTerm c f a (k/2) else fluxTerm c f b (k/2) := by
  rcases Nat.even_or_odd' k with ⟨m, rfl | rfl⟩
  · rw [if_pos (by omega), show 2*m/2 = m by omega]
    unfold scatterFlux2 fluxTerm
    have p1 : 2*m = 2*f.up.toNat ↔ m = f.up.toNat := by omega
    have p2 : 2*m = 2*f.dn.toNat ↔ m = f.dn.toNat := by omega
    have p3 : ¬ 2*m = 2*f.up.toNat + 1 := by omega
    have p4 : ¬ 2*m = 2*f.dn.toNat + 1 := by omega
    split_ifs <;> simp_all [addAt_apply]
  · rw [if_neg (by omega), show (2*m + 1)/2 = m by omega]
    unfold scatterFlux2 fluxTerm
    have p1 : 2*m + 1 = 2*f.up.toNat + 1 ↔ m = f.up.toNat := by omega
    have p2 : 2*m + 1 = 2*f.dn.toNat + 1 ↔ m = f.dn.toNat := by omega
    have p3 : ¬ 2*m + 1 = 2*f.up.toNat := by omega
    have p4 : ¬ 2*m + 1 = 2*f.dn.toNat := by omega
    split_ifs <;> simp_all [addAt_apply]

/-- A loop that commutes with a projection of its state. -/
theorem forN_sim {α β : Type*} (φ : α → β) (n : Nat) (body : Nat → α → α) (body' : Nat → β → β)
    (h : ∀ i a, i < n → φ (body i a) = body' i (φ a)) (a : α) :
    φ (forN n body a) = forN n body' (φ a) := by
  induction n with
  | zero => rfl
  | succ n ih =>
    rw [forN, h n _ (by omega), ih (fun i a hi => h i a (by omega))]
    rfl

/-- The water entries see the water fluxes only. -/
theorem vertexLoop2_even (c : Ctx) (q0 q1 : Nat → Nat → ℝ) (r : Nat → ℝ) (j : Nat) :
    vertexLoop2 c q0 q1 r (2*j) = vertexLoop c q0 (fun j => r (2*j)) j := by
  have := forN_sim (φ := fun (r : Nat → ℝ) (j : Nat) => r (2*j)) c.numVertices (body' := fun v r =>
    if !(c.vert v).isLocal then r
    else forN (c.vert v).nRows (fun i r =>
      if !(c.face ((c.vert v).face i)).isLocal then r
      else scatterFlux c (c.face ((c.vert v).face i)) (q0 v i) r) r) (body := fun v r =>
    if !(c.vert v).isLocal then r
    else forN (c.vert v).nRows (fun i r =>
      if !(c.face ((c.vert v).face i)).isLocal then r
      else scatterFlux2 c (c.face ((c.vert v).face i)) (q0 v i) (q1 v i) r) r) ?_ r
  · exact congrFun this j
  · intro v a _
    cases (c.vert v).isLocal
    · rfl
    · simp only [Bool.not_true, Bool.false_eq_true, if_false]
      refine forN_sim (φ := fun (r : Nat → ℝ) (j : Nat) => r (2*j)) _ _ _ ?_ a
      intro i a _
      funext j
      cases (c.face ((c.vert v).face i)).isLocal
      · rfl
      · simp only [Bool.not_true, Bool.false_eq_true, if_false, scatterFlux_apply,
          scatterFlux2_apply]
        rw [if_pos (by omega), show 2*j/2 = j by omega]

/-- The other entries see the other fluxes only. -/
theorem vertexLoop2_odd (c : Ctx) (q0 q1 : Nat → Nat → ℝ) (r : Nat → ℝ) (j : Nat) :
    vertexLoop2 c q0 q1 r (2*j + 1) = vertexLoop c q1 (fun j => r (2*j + 1)) j := by
  have := forN_sim (φ := fun (r : Nat → ℝ) (j : Nat) => r (2*j + 1)) c.numVertices (body' := fun v r =>
    if !(c.vert v).isLocal then r
    else forN (c.vert v).nRows (fun i r =>
      if !(c.face ((c.vert v).face i)).isLocal then r
      else scatterFlux c (c.face ((c.vert v).face i)) (q1 v i) r) r) (body := fun v r =>
    if !(c.vert v).isLocal then r
    else forN (c.vert v).nRows (fun i r =>
      if !(c.face ((c.vert v).face i)).isLocal then r
      else scatterFlux2 c (c.face ((c.vert v).face i)) (q0 v i) (q1 v i) r) r) ?_ r
  · exact congrFun this j
  · intro v a _
    cases (c.vert v).isLocal
    · rfl
    · simp only [Bool.not_true, Bool.false_eq_true, if_false]
      refine forN_sim (φ := fun (r : Nat → ℝ) (j : Nat) => r (2*j + 1)) _ _ _ ?_ a
      intro i a _
      funext j
      cases (c.face ((c.vert v).face i)).isLocal
      · rfl
      · simp only [Bool.not_true, Bool.false_eq_true, if_false, scatterFlux_apply,
          scatterFlux2_apply]
        rw [if_neg (by omega), show (2*j + 1)/2 = j by omega]

/-- What a cell adds to entry `k`. -/
def cellTerm2 (g0 g1 : Nat → ℝ) (i k : Nat) : ℝ :=
  if k = 2*i then g0 i else if k = 2*i + 1 then g1 i else 0

/-- A loop over the cells that adds `g0 i`, `g1 i` to the two entries of the cells that satisfy
`p`. -/
theorem cellLoop2_apply (n : Nat) (p : Nat → Prop) [DecidablePred p]
    (body : Nat → (Nat → ℝ) → (Nat → ℝ)) (g0 g1 : Nat → ℝ)
    (h : ∀ i r k, i < n → body i r k = r k + if p i then cellTerm2 g0 g1 i k else 0)
    (r : Nat → ℝ) (j : Nat) :
    forN n body r (2*j) = r (2*j) + (if j < n ∧ p j then g0 j else 0) ∧
    forN n body r (2*j + 1) = r (2*j + 1) + (if j < n ∧ p j then g1 j else 0) := by
  have key := fun k => forN_add n body
    (fun i k => if p i then cellTerm2 g0 g1 i k else 0) (fun i r k hi => h i r k hi) r k
  constructor
  · rw [key]
    congr 1
    by_cases hj : j < n
    · rw [sum_eq_single j]
      · by_cases hp : p j <;> simp [hj, hp, cellTerm2]
      · intro b _ hb
        have h1 : ¬ 2*j = 2*b := by omega
        have h2 : ¬ 2*j = 2*b + 1 := by omega
        simp only [cellTerm2, if_neg h1, if_neg h2, ite_self]
      · intro hn; exact absurd (mem_range.2 hj) hn
    · rw [if_neg (by tauto)]
      refine sum_eq_zero fun i hi => ?_
      have hi := mem_range.1 hi
      have h1 : ¬ 2*j = 2*i := by omega
      have h2 : ¬ 2*j = 2*i + 1 := by omega
      simp only [cellTerm2, if_neg h1, if_neg h2, ite_self]
  · rw [key]
    congr 1
    by_cases hj : j < n
    · rw [sum_eq_single j]
      · have h1 : ¬ 2*j + 1 = 2*j := by omega
        by_cases hp : p j <;> simp [hj, hp, cellTerm2]
      · intro b _ hb
        have h1 : ¬ 2*j + 1 = 2*b := by omega
        have h2 : ¬ 2*j + 1 = 2*b + 1 := by omega
        simp only [cellTerm2, if_neg h1, if_neg h2, ite_self]
      · intro hn; exact absurd (mem_range.2 hj) hn
    · rw [if_neg (by tauto)]
      refine sum_eq_zero fun i hi => ?_
      have hi := mem_range.1 hi
      have h1 : ¬ 2*j + 1 = 2*i := by omega
      have h2 : ¬ 2*j + 1 = 2*i + 1 := by omega
      simp only [cellTerm2, if_neg h1, if_neg h2, ite_self]

theorem salCellLoop_apply (s : Sal) (dtime : ℝ) (prev r : Nat → ℝ) (j : Nat) :
    salCellLoop s dtime prev r (2*j) = r (2*j) +
      (if j < s.base.numCells ∧ s.base.isLocal j = true then
        snesAccum s.base dtime j - prev (2*j) - s.base.source j else 0) ∧
    salCellLoop s dtime prev r (2*j + 1) = r (2*j + 1) +
      (if j < s.base.numCells ∧ s.base.isLocal j = true then
        saltAccum s dtime j - prev (2*j + 1) - s.saltSource j else 0) := by
  unfold salCellLoop
  apply cellLoop2_apply s.base.numCells (fun j => s.base.isLocal j = true) _
    (fun j => snesAccum s.base dtime j - prev (2*j) - s.base.source j)
    (fun j => saltAccum s dtime j - prev (2*j + 1) - s.saltSource j)
  intro i r k _
  cases hl : s.base.isLocal i
  · simp
  · simp only [Bool.not_true, Bool.false_eq_true, if_false, addAt_apply, if_true, cellTerm2]
    by_cases h1 : k = 2*i
    · have h2 : ¬ k = 2*i + 1 := by omega
      simp only [h1, if_true]
      rw [if_neg (by omega), if_neg (by omega)]; ring
    · by_cases h2 : k = 2*i + 1
      · simp only [h2, if_true]
        rw [if_neg (by omega), if_neg (by omega), if_neg (by omega)]; ring
      · simp [h1, h2]

theorem salPreSolve_apply (s : Sal) (dtime : ℝ) (old : Nat → ℝ) (j : Nat)
    (hj : j < s.base.numCells) (hl : s.base.isLocal j = true) :
    salPreSolve s dtime old (2*j) = snesAccum s.base dtime j ∧
    salPreSolve s dtime old (2*j + 1) = saltAccum s dtime j := by
  unfold salPreSolve
  have key : ∀ n, j < n →
      forN n (fun i a => if !s.base.isLocal i then a
        else wr (wr a (2*i) (snesAccum s.base dtime i)) (2*i + 1) (saltAccum s dtime i)) old (2*j) =
        snesAccum s.base dtime j ∧
      forN n (fun i a => if !s.base.isLocal i then a
        else wr (wr a (2*i) (snesAccum s.base dtime i)) (2*i + 1) (saltAccum s dtime i)) old
        (2*j + 1) = saltAccum s dtime j := by
    intro n
    induction n with
    | zero => intro h; omega
    | succ n ih =>
      intro h
      simp only [forN]
      by_cases e : j = n
      · subst e
        simp [hl, wr]
      · have ih := ih (by omega)
        have h1 : ¬ 2*j = 2*n := by omega
        have h2 : ¬ 2*j = 2*n + 1 := by omega
        have h3 : ¬ 2*j + 1 = 2*n := by omega
        have h4 : ¬ 2*j + 1 = 2*n + 1 := by omega
        cases s.base.isLocal n
        · simpa using ih
        · simp only [Bool.not_true, Bool.false_eq_true, if_false, wr, if_neg h1, if_neg h2,
            if_neg h3, if_neg h4]
          exact ih
  exact key _ hj

/-- The cells the TH accumulation loop reaches: no ghost cell before them. -/
def Reached (t : Th) (j : Nat) : Prop := ∀ k ≤ j, t.base.isLocal k = true

/-- Accumulation and source of water. -/
def thStorageM (t : Th) (dpdt dTdt : Nat → ℝ) (j : Nat) : ℝ :=
  (thDmassdP t j*dpdt j + thDmassdT t j*dTdt j - t.base.source j)*t.base.vol j

/-- Accumulation and source of energy. -/
def thStorageE (t : Th) (dpdt dTdt : Nat → ℝ) (j : Nat) : ℝ :=
  (thDenergydP t j*dpdt j + thDenergydT t j*dTdt j - (t.heat j).source)*t.base.vol j

theorem thCell_apply (t : Th) (dpdt dTdt : Nat → ℝ) (i : Nat) (r : Nat → ℝ) (k : Nat) :
    thCell t dpdt dTdt i r k =
      r k + cellTerm2 (thStorageM t dpdt dTdt) (thStorageE t dpdt dTdt) i k := by
  unfold thCell cellTerm2 thStorageM thStorageE
  simp only [addAt_apply]
  by_cases h1 : k = 2*i
  · have h2 : ¬ k = 2*i + 1 := by omega
    simp only [h1, if_true]
    rw [if_neg (by omega), if_neg (by omega)]; ring
  · by_cases h2 : k = 2*i + 1
    · simp only [h2, if_true]
      rw [if_neg (by omega), if_neg (by omega), if_neg (by omega)]; ring
    · simp [h1, h2]

open Classical in
theorem thCellLoop_apply (t : Th) (dpdt dTdt r : Nat → ℝ) (j : Nat) :
    thCellLoop t dpdt dTdt r (2*j) = r (2*j) +
      (if j < t.base.numCells ∧ Reached t j then thStorageM t dpdt dTdt j else 0) ∧
    thCellLoop t dpdt dTdt r (2*j + 1) = r (2*j + 1) +
      (if j < t.base.numCells ∧ Reached t j then thStorageE t dpdt dTdt j else 0) := by
  have key : ∀ n, forN n (fun i (s : (Nat → ℝ) × Bool) =>
      if s.2 = true then s
      else if !t.base.isLocal i then (s.1, true)
      else (thCell t dpdt dTdt i s.1, false)) (r, false) =
      (forN n (fun i r => if Reached t i then thCell t dpdt dTdt i r else r) r,
        decide (∃ k < n, t.base.isLocal k = false)) := by
    intro n
    induction n with
    | zero => simp [forN]
    | succ n ih =>
      simp only [forN]
      rw [ih]
      dsimp only
      by_cases h : ∃ k < n, t.base.isLocal k = false
      · have nr : ¬ Reached t n := by
          obtain ⟨k, hk, e⟩ := h
          intro hr
          rw [hr k (by omega)] at e
          exact absurd e (by decide)
        have h' : ∃ k < n + 1, t.base.isLocal k = false := by
          obtain ⟨k, hk, e⟩ := h
          exact ⟨k, by omega, e⟩
        rw [decide_eq_true h, decide_eq_true h', if_neg nr, if_pos rfl]
      · simp only [h, decide_false, Bool.false_eq_true, if_false]
        cases hl : t.base.isLocal n
        · have nr : ¬ Reached t n := by
            intro hr
            rw [hr n (le_refl _)] at hl
            exact absurd hl (by decide)
          have h' : ∃ k < n + 1, t.base.isLocal k = false := ⟨n, by omega, hl⟩
          rw [decide_eq_true h', if_neg nr]; rfl
        · have hr : Reached t n := by
            intro k hk
            by_cases e : k = n
            · rw [e]; exact hl
            · cases hb : t.base.isLocal k
              · exact absurd ⟨k, by omega, hb⟩ h
              · rfl
          have h' : ¬ ∃ k < n + 1, t.base.isLocal k = false := by
            rintro ⟨k, hk, e⟩
            rw [hr k (by omega)] at e
            exact absurd e (by decide)
          rw [decide_eq_false h', if_pos hr]; rfl
  unfold thCellLoop
  rw [key]
  apply cellLoop2_apply t.base.numCells (fun j => Reached t j) _
    (thStorageM t dpdt dTdt) (thStorageE t dpdt dTdt)
  intro i r k _
  by_cases hr : Reached t i
  · rw [if_pos hr, if_pos hr, thCell_apply]
  · rw [if_neg hr, if_neg hr, add_zero]

theorem psiMat_apply (s : Sal) (a b : Nat) :
    psiMat s a b = ∑ v ∈ range s.base.numVertices, ∑ i ∈ range (s.base.vert v).nRows,
      if (s.base.vert v).isLocal = true ∧ s.corner v = true ∧ s.base.bc ≠ .neumann then
        ∑ j ∈ range (s.base.vert v).nCols,
          if a = wslot (s.base.vert v) i ∧ b = (s.base.vert v).col j then s.psiM v i j else 0
      else 0 := by
  unfold psiMat
  rw [forN_addM (g := fun v a b => ∑ i ∈ range (s.base.vert v).nRows,
      if (s.base.vert v).isLocal = true ∧ s.corner v = true ∧ s.base.bc ≠ .neumann then
        ∑ j ∈ range (s.base.vert v).nCols,
          if a = wslot (s.base.vert v) i ∧ b = (s.base.vert v).col j then s.psiM v i j else 0
      else 0)]
  · simp
  · intro v A a b _
    cases hv : (s.base.vert v).isLocal
    · simp
    · by_cases hc : s.corner v = true ∧ s.base.bc ≠ .neumann
      · simp only [Bool.not_true, Bool.false_eq_true, if_false, if_pos hc, true_and]
        apply forN_addM (g := fun i a b => ∑ j ∈ range (s.base.vert v).nCols,
          if a = wslot (s.base.vert v) i ∧ b = (s.base.vert v).col j then s.psiM v i j else 0)
        intro i A a b _
        rw [addRow_apply]
        rfl
      · simp only [Bool.not_true, Bool.false_eq_true, if_false, if_neg hc, true_and,
          sum_const_zero, add_zero]

end

end TDy.Mpfao.Proofs
