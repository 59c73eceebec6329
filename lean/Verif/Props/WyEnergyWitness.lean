import Mathlib.Tactic.IntervalCases
import Verif.Props.WyEnergy
import Verif.Props.WyWitness

/-!
# Three squares in a row: C183 holds with equal permeabilities and is violated with very different ones
-/

namespace TDy.Fe.Props.WyEnergyWitness

open TDy.Fe TDy.Fe.Spec TDy.Fe.Proofs Finset
open TDy.Fe.Props.WyWitness (sides)

noncomputable section

/-- Three squares of side two next to each other.  Cells 0 to 2, vertices 3 to 6 below and 7 to 10 above,
faces 11 to 14 upright, 15 to 17 below, 18 to 20 above.  Pressure 0 is given all around, and there is a
source of 1.  The tolerance is that of the code, with the precision of doubles. -/
def trio : Wy where
  dim := 2
  nq := 4
  nfv := 2
  nCells := 3
  fStart := 11
  fEnd := 21
  vStart := 3
  vEnd := 11
  star := fun v => [[], [], [], [3, 11, 15, 0], [4, 12, 15, 16, 0, 1], [5, 13, 16, 17, 1, 2], [6, 14, 17, 2],
    [7, 11, 18, 0], [8, 12, 18, 19, 0, 1], [9, 13, 19, 20, 1, 2], [10, 14, 20, 2]].getD v []
  vmap := fun c q => [3 + c, 4 + c, 7 + c, 8 + c].getD q 0
  emap := fun c k => sides (11 + c) (12 + c) (15 + c) (18 + c) k
  fmap := fun f k => [[3, 7], [4, 8], [5, 9], [6, 10], [3, 4], [4, 5], [5, 6], [7, 8], [8, 9],
    [9, 10]].getD (f - 11) [] |>.getD k 0
  V := fun k => if k < 3 then 4 else 2
  X := fun k i => if i = 0 then ([1, 3, 5, 0, 0, 0, 0, 0, 0, 0, 0, 0, 2, 4, 6, 1, 3, 5, 1, 3, 5].getD k 0 : Nat)
    else ([1, 1, 1, 0, 0, 0, 0, 0, 0, 0, 0, 1, 1, 1, 1, 0, 0, 0, 2, 2, 2].getD k 0 : Nat)
  N := fun f i => if f < 15 then (if i = 0 then 1 else 0) else (if i = 0 then 0 else 1)
  cone := fun c => [15 + c, 12 + c, 18 + c, 11 + c]
  bc := fun f => f != 12 && f != 13
  hasPressure := true
  pb := fun _ => 0
  hasForcing := true
  force := fun _ _ => 1
  DFinv := fun _ _ k => if k = 0 ∨ k = 3 then 1 else 0
  J := fun _ _ => 1
  global := fun c => c
  debug := true
  tol := 10^4/2^52

def trioCor (v c : Nat) : Nat := [3 + c, 4 + c, 7 + c, 8 + c].idxOf v

/-- Permeability `κ c` in cell `c`, in all directions. -/
def perm (κ : Nat → ℝ) : Nat → Nat → ℝ := fun c k => if k = 0 ∨ k = 3 then κ c else 0

theorem trio_star : ∀ v, trio.vStart ≤ v → v < trio.vEnd → Star trio v (trioCor v) := by
  intro v h1 h2
  change 3 ≤ v at h1
  change v < 11 at h2
  interval_cases v <;> constructor <;> decide

theorem perm_scalar (a : ℝ) : toMatrix 2 (fun k => if k = 0 ∨ k = 3 then a else 0) = a • 1 := by
  ext i j
  fin_cases i <;> fin_cases j <;> simp [toMatrix]

theorem trio_regular {κ : Nat → ℝ} (hκ : ∀ c, 0 < κ c) : ∀ c < trio.nCells, Regular trio (perm κ) c := by
  intro c _
  refine ⟨?_, fun q _ => ⟨one_pos, ?_⟩⟩
  · intro x hx
    change Fin 2 → ℝ at x
    show 0 < dotProduct x ((toMatrix 2 _).mulVec x)
    unfold perm
    rw [perm_scalar, Matrix.smul_mulVec, Matrix.one_mulVec, dotProduct_smul, smul_eq_mul]
    refine mul_pos (hκ c) ?_
    rw [dotProduct, Fin.sum_univ_two]
    by_contra hn
    apply hx
    have h0 : x 0 = 0 := by nlinarith [mul_self_nonneg (x 0), mul_self_nonneg (x 1)]
    have h1 : x 1 = 0 := by nlinarith [mul_self_nonneg (x 0), mul_self_nonneg (x 1)]
    funext i
    fin_cases i
    · exact h0
    · exact h1
  · show (toMatrix 2 _).det ≠ 0
    have : toMatrix 2 (trio.DFinv c q) = (1:ℝ) • 1 := perm_scalar 1
    rw [this, one_smul, Matrix.det_one]
    exact one_ne_zero

theorem trio_cov : ∀ v, trio.vStart ≤ v → v < trio.vEnd → ∀ f ∈ trio.faces v,
    Covered trio v (trioCor v) f := by
  intro v h1 h2
  change 3 ≤ v at h1
  change v < 11 at h2
  have key : ∀ f ∈ trio.faces v, ∃ c ∈ trio.cells v, ∃ i < 2, trio.face c (trioCor v c) i = f
      ∧ trio.emap c (trioCor v c*2 + i) ≠ 0 ∧ 3 ≤ f := by
    interval_cases v <;> decide
  intro f hf
  obtain ⟨c, hc, i, hi, hfi, hs, h2⟩ := key f hf
  refine ⟨c, hc, i, hi, hfi, ?_, ?_⟩
  · unfold Wy.sign
    rw [Int.cast_ne_zero]
    intro h0
    exact hs (Int.sign_eq_zero_iff_zero.1 h0)
  · show (if f < 3 then (4:ℝ) else 2) ≠ 0
    rw [if_neg (by omega)]
    norm_num

theorem trio_size : ∀ v, trio.vStart ≤ v → v < trio.vEnd →
    (trio.faces v).length ≤ 12 ∧ (trio.cells v).length ≤ 12 := by
  intro v h1 h2
  change 3 ≤ v at h1
  change v < 11 at h2
  interval_cases v <;> decide

theorem trio_numbers : GlobalNumbers trio id := ⟨by decide, fun _ _ _ _ h => h⟩

theorem trio_mass (κ : Nat → ℝ) (hκ : ∀ c, 0 < κ c) (c q i j : Nat) (hi : i < 2) (hj : j < 2) :
    cornerMass trio (perm κ) c q i j = if i = j then 1/(4*κ c) else 0 := by
  have e : ((1:ℝ) • (toMatrix 2 (fun k => if k = 0 ∨ k = 3 then (1:ℝ) else 0)
      *toMatrix 2 (fun k => if k = 0 ∨ k = 3 then κ c else 0)
      *(toMatrix 2 (fun k => if k = 0 ∨ k = 3 then (1:ℝ) else 0)).transpose)) = κ c • 1 := by
    rw [perm_scalar, perm_scalar]
    simp
  have hinv : (κ c • (1 : Matrix (Fin 2) (Fin 2) ℝ))⁻¹ = (κ c)⁻¹ • 1 := by
    refine Matrix.inv_eq_right_inv ?_
    rw [Matrix.smul_mul, Matrix.mul_smul, Matrix.one_mul, smul_smul, mul_inv_cancel₀ (hκ c).ne', one_smul]
  show entry ((1:ℝ) • (toMatrix 2 (fun k => if k = 0 ∨ k = 3 then (1:ℝ) else 0)
      *toMatrix 2 (fun k => if k = 0 ∨ k = 3 then κ c else 0)
      *(toMatrix 2 (fun k => if k = 0 ∨ k = 3 then (1:ℝ) else 0)).transpose))⁻¹ i j
    *cornerSide q i*cornerSide q j*(4/4^2) = _
  rw [e, hinv]
  unfold entry
  rw [dif_pos ⟨hi, hj⟩, Matrix.smul_apply, Matrix.one_apply]
  show (κ c)⁻¹ • (if (⟨i, hi⟩ : Fin 2) = ⟨j, hj⟩ then (1:ℝ) else 0)*cornerSide q i*cornerSide q j*(4/4^2) = _
  by_cases hij : i = j
  · subst hij
    rw [if_pos rfl, if_pos rfl]
    have hs : cornerSide q i*cornerSide q i = 1 := by
      unfold cornerSide
      split <;> norm_num
    have hk := (hκ c).ne'
    rw [smul_eq_mul, mul_one, mul_assoc (κ c)⁻¹, hs]
    field_simp
  · rw [if_neg (by rw [Fin.mk.injEq]; exact hij), if_neg hij]
    simp

/-- The stencil of a vertex of two squares. -/
theorem two_squares (a b : Nat → Nat → ℝ) (α β s s1 s2 : ℝ) (hα : 0 < α) (hβ : 0 < β)
    (ha : mat 3 3 a = !![α + β, 0, 0; 0, α, 0; 0, 0, β])
    (hb : mat 3 2 b = !![s, -s; s1, 0; 0, s2]) (h : s*s = 1) (h1 : s1*s1 = 1) (h2 : s2*s2 = 1) :
    (mat 3 2 b).transpose*(mat 3 3 a)⁻¹*mat 3 2 b
      = !![1/(α + β) + 1/α, -(1/(α + β)); -(1/(α + β)), 1/(α + β) + 1/β] := by
  have hαβ : α + β ≠ 0 := by positivity
  have hinv : (mat 3 3 a)⁻¹ = !![1/(α + β), 0, 0; 0, 1/α, 0; 0, 0, 1/β] := by
    refine Matrix.inv_eq_right_inv ?_
    rw [ha]
    ext i j
    fin_cases i <;> fin_cases j <;> simp [Matrix.mul_apply, Fin.sum_univ_three, hα.ne', hβ.ne', hαβ]
  rw [hinv, hb]
  ext i j
  fin_cases i <;> fin_cases j <;>
    simp [Matrix.mul_apply, Fin.sum_univ_three]
  · linear_combination (α + β)⁻¹*h + α⁻¹*h1
  · linear_combination (α + β)⁻¹*h
  · linear_combination (α + β)⁻¹*h
  · linear_combination (α + β)⁻¹*h + β⁻¹*h2

theorem trio_aTerm {κ : Nat → ℝ} (hκ : ∀ c, 0 < κ c) {l : Local} {c : Nat} (hl : LocalIs trio (perm κ) l c)
    (cor : Nat → Nat) (hq : cor c < 4) {i j : Nat} (hi : i < 2) (hj : j < 2) (hc : c < 3) :
    aTerm trio l.A cor c i j = if i = j then 1/κ c else 0 := by
  unfold aTerm
  rw [(hl.1 _ hq).2.2 i hi j hj, trio_mass κ hκ c _ i j hi hj]
  split
  · rename_i h
    subst h
    have hV : trio.V (trio.face c (cor c) i) = 2 := by
      have : ∀ c < 3, ∀ q < 4, ∀ i < 2, ¬ trio.face c q i < 3 := by decide
      exact if_neg (this c hc _ hq i hi)
    have hs : trio.sign c (cor c) i*trio.sign c (cor c) i = 1 := by
      have : ∀ c < 3, ∀ q < 4, ∀ i < 2, (trio.emap c (q*2 + i)).sign*(trio.emap c (q*2 + i)).sign = 1 := by
        decide
      unfold Wy.sign
      rw [← Int.cast_mul]
      exact_mod_cast this c hc _ hq i hi
    have hk := (hκ c).ne'
    rw [hV, mul_assoc (1/(4*κ c)), hs]
    field_simp
    norm_num
  · ring

theorem trio_bTerm (cor : Nat → Nat) {c i : Nat} (hq : cor c < 4) (hi : i < 2) (hc : c < 3) :
    bTerm trio cor c i = ((trio.emap c (cor c*2 + i)).sign : ℝ) := by
  have hV : trio.V (trio.face c (cor c) i) = 2 := by
    have : ∀ c < 3, ∀ q < 4, ∀ i < 2, ¬ trio.face c q i < 3 := by decide
    exact if_neg (this c hc _ hq i hi)
  unfold bTerm
  rw [hV]
  show (1/2 : ℝ)^(2 - 1)*((trio.emap c (cor c*2 + i)).sign : ℝ)*2 = _
  ring

/-- The stencil of a vertex of two squares of the trio. -/
theorem trio_stencil {κ : Nat → ℝ} (hκ : ∀ c, 0 < κ c) {l : Local}
    (hl : ∀ c < trio.nCells, LocalIs trio (perm κ) l c) {v a : Nat}
    (hv : (v = 4 ∧ a = 0) ∨ (v = 5 ∧ a = 1) ∨ (v = 8 ∧ a = 0) ∨ (v = 9 ∧ a = 1)) :
    cMat trio l.A v (trioCor v) 0 0 = 1/(1/κ a + 1/κ (a + 1)) + κ a ∧
    cMat trio l.A v (trioCor v) 0 1 = -(1/(1/κ a + 1/κ (a + 1))) ∧
    cMat trio l.A v (trioCor v) 1 0 = -(1/(1/κ a + 1/κ (a + 1))) ∧
    cMat trio l.A v (trioCor v) 1 1 = 1/(1/κ a + 1/κ (a + 1)) + κ (a + 1) := by
  have hfl : (trio.faces v).length = 3 := by
    rcases hv with ⟨rfl, rfl⟩ | ⟨rfl, rfl⟩ | ⟨rfl, rfl⟩ | ⟨rfl, rfl⟩ <;> decide
  have hcl : (trio.cells v).length = 2 := by
    rcases hv with ⟨rfl, rfl⟩ | ⟨rfl, rfl⟩ | ⟨rfl, rfl⟩ | ⟨rfl, rfl⟩ <;> decide
  have hcs : (trio.cells v).toFinset = {a, a + 1} := by
    rcases hv with ⟨rfl, rfl⟩ | ⟨rfl, rfl⟩ | ⟨rfl, rfl⟩ | ⟨rfl, rfl⟩ <;> decide
  have ha3 : a + 1 < 3 := by omega
  have hq : trioCor v a < 4 ∧ trioCor v (a + 1) < 4 := by
    rcases hv with ⟨rfl, rfl⟩ | ⟨rfl, rfl⟩ | ⟨rfl, rfl⟩ | ⟨rfl, rfl⟩ <;> decide
  have hF : Fi trio v (trio.face a (trioCor v a) 0) = 0 ∧ Fi trio v (trio.face a (trioCor v a) 1) = 1 ∧
      Fi trio v (trio.face (a + 1) (trioCor v (a + 1)) 0) = 0 ∧
      Fi trio v (trio.face (a + 1) (trioCor v (a + 1)) 1) = 2 := by
    rcases hv with ⟨rfl, rfl⟩ | ⟨rfl, rfl⟩ | ⟨rfl, rfl⟩ | ⟨rfl, rfl⟩ <;> decide
  have hC : Ci trio v a = 0 ∧ Ci trio v (a + 1) = 1 := by
    rcases hv with ⟨rfl, rfl⟩ | ⟨rfl, rfl⟩ | ⟨rfl, rfl⟩ | ⟨rfl, rfl⟩ <;> decide
  have hA : mat 3 3 (aMat trio l.A v (trioCor v)) =
      !![1/κ a + 1/κ (a + 1), 0, 0; 0, 1/κ a, 0; 0, 0, 1/κ (a + 1)] := by
    have e : ∀ r k, aMat trio l.A v (trioCor v) r k =
        (if r = 0 ∧ k = 0 then 1/κ a else 0) + (if r = 1 ∧ k = 1 then 1/κ a else 0)
        + ((if r = 0 ∧ k = 0 then 1/κ (a + 1) else 0) + (if r = 2 ∧ k = 2 then 1/κ (a + 1) else 0)) := by
      intro r k
      unfold aMat
      rw [hcs, sum_pair (by omega)]
      show ∑ i ∈ range 2, ∑ j ∈ range 2, _ + ∑ i ∈ range 2, ∑ j ∈ range 2, _ = _
      simp only [sum_range_succ, range_zero, sum_empty, hF.1, hF.2.1, hF.2.2.1, hF.2.2.2, zero_add]
      rw [trio_aTerm hκ (hl a (by show a < 3; omega)) _ hq.1 (by omega) (by omega) (by omega),
        trio_aTerm hκ (hl a (by show a < 3; omega)) _ hq.1 (by omega) (by omega) (by omega),
        trio_aTerm hκ (hl a (by show a < 3; omega)) _ hq.1 (by omega) (by omega) (by omega),
        trio_aTerm hκ (hl a (by show a < 3; omega)) _ hq.1 (by omega) (by omega) (by omega),
        trio_aTerm hκ (hl (a + 1) ha3) _ hq.2 (by omega) (by omega) ha3,
        trio_aTerm hκ (hl (a + 1) ha3) _ hq.2 (by omega) (by omega) ha3,
        trio_aTerm hκ (hl (a + 1) ha3) _ hq.2 (by omega) (by omega) ha3,
        trio_aTerm hκ (hl (a + 1) ha3) _ hq.2 (by omega) (by omega) ha3]
      norm_num
    ext r k
    show aMat trio l.A v (trioCor v) r k = _
    rw [e]
    fin_cases r <;> fin_cases k <;> simp
  have hbt : bTerm trio (trioCor v) a 0 = 1 ∧ bTerm trio (trioCor v) (a + 1) 0 = -1 ∧
      bTerm trio (trioCor v) a 1*bTerm trio (trioCor v) a 1 = 1 ∧
      bTerm trio (trioCor v) (a + 1) 1*bTerm trio (trioCor v) (a + 1) 1 = 1 := by
    rw [trio_bTerm _ hq.1 (by omega) (by omega), trio_bTerm _ hq.2 (by omega) ha3,
      trio_bTerm _ hq.1 (by omega) (by omega), trio_bTerm _ hq.2 (by omega) ha3]
    have : (trio.emap a (trioCor v a*2 + 0)).sign = 1 ∧ (trio.emap (a + 1) (trioCor v (a + 1)*2 + 0)).sign = -1 ∧
        (trio.emap a (trioCor v a*2 + 1)).sign*(trio.emap a (trioCor v a*2 + 1)).sign = 1 ∧
        (trio.emap (a + 1) (trioCor v (a + 1)*2 + 1)).sign*(trio.emap (a + 1) (trioCor v (a + 1)*2 + 1)).sign
          = 1 := by
      rcases hv with ⟨rfl, rfl⟩ | ⟨rfl, rfl⟩ | ⟨rfl, rfl⟩ | ⟨rfl, rfl⟩ <;> decide
    exact_mod_cast this
  have hB : mat 3 2 (bMat trio v (trioCor v)) = !![1, -1; bTerm trio (trioCor v) a 1, 0;
      0, bTerm trio (trioCor v) (a + 1) 1] := by
    ext r k
    show bMat trio v (trioCor v) r k = _
    unfold bMat
    rw [hcs, sum_pair (by omega)]
    show ∑ i ∈ range 2, _ + ∑ i ∈ range 2, _ = _
    simp only [sum_range_succ, range_zero, sum_empty, hF.1, hF.2.1, hF.2.2.1, hF.2.2.2, zero_add, hC.1, hC.2,
      hbt.1, hbt.2.1]
    fin_cases r <;> fin_cases k <;> simp
  have h := two_squares _ _ (1/κ a) (1/κ (a + 1)) 1 _ _ (by have := hκ a; positivity)
    (by have := hκ (a + 1); positivity) hA hB (by norm_num) hbt.2.2.1 hbt.2.2.2
  have hcm : cMat trio l.A v (trioCor v) = entry ((mat 3 2 (bMat trio v (trioCor v))).transpose
      *(mat 3 3 (aMat trio l.A v (trioCor v)))⁻¹*mat 3 2 (bMat trio v (trioCor v))) := by
    unfold cMat
    rw [hfl, hcl]
  rw [hcm, h]
  refine ⟨?_, ?_, ?_, ?_⟩ <;> simp [entry]


theorem maxAbs_two (C : Nat → Nat → ℝ) : |C 0 0| ≤ maxAbs 2 C ∧ |C 1 1| ≤ maxAbs 2 C := by
  have e : maxAbs 2 C = max (max (max (max 0 |C 0 0|) |C 1 0|) |C 0 1|) |C 1 1| := rfl
  rw [e]
  exact ⟨le_max_of_le_left (le_max_of_le_left (le_max_of_le_left (le_max_right _ _))), le_max_right _ _⟩

/-- With permeability 1 no entry of a stencil is small. -/
theorem trio_entries {l : Local} (hl : ∀ c < trio.nCells, LocalIs trio (perm fun _ => 1) l c) :
    ∀ v, trio.vStart ≤ v → v < trio.vEnd → ∀ m < (trio.cells v).length, ∀ q < (trio.cells v).length,
      |cMat trio l.A v (trioCor v) m q|
        < trio.tol*maxAbs (trio.cells v).length (cMat trio l.A v (trioCor v)) →
      cMat trio l.A v (trioCor v) m q = 0 := by
  intro v h1 h2
  change 3 ≤ v at h1
  change v < 11 at h2
  have htol : trio.tol = 10^4/2^52 := rfl
  by_cases hv : (∃ a, (v = 4 ∧ a = 0) ∨ (v = 5 ∧ a = 1) ∨ (v = 8 ∧ a = 0) ∨ (v = 9 ∧ a = 1))
  · obtain ⟨a, hv⟩ := hv
    have hcl : (trio.cells v).length = 2 := by
      rcases hv with ⟨rfl, rfl⟩ | ⟨rfl, rfl⟩ | ⟨rfl, rfl⟩ | ⟨rfl, rfl⟩ <;> decide
    obtain ⟨e1, e2, e3, e4⟩ := trio_stencil (fun _ => one_pos) hl hv
    rw [hcl]
    have hm : maxAbs 2 (cMat trio l.A v (trioCor v)) = 3/2 := by
      have e : maxAbs 2 (cMat trio l.A v (trioCor v)) = max (max (max (max 0 |cMat trio l.A v (trioCor v) 0 0|)
        |cMat trio l.A v (trioCor v) 1 0|) |cMat trio l.A v (trioCor v) 0 1|)
        |cMat trio l.A v (trioCor v) 1 1| := rfl
      rw [e, e1, e2, e3, e4]
      norm_num [abs_of_pos]
    intro m hm2 q hq2 hlt
    rw [hm, htol] at hlt
    exfalso
    interval_cases m <;> interval_cases q
    · rw [e1] at hlt; norm_num [abs_of_pos] at hlt
    · rw [e2] at hlt; norm_num [abs_of_pos] at hlt
    · rw [e3] at hlt; norm_num [abs_of_pos] at hlt
    · rw [e4] at hlt; norm_num [abs_of_pos] at hlt
  · have hcl : (trio.cells v).length = 1 := by
      have : v ≠ 4 ∧ v ≠ 5 ∧ v ≠ 8 ∧ v ≠ 9 :=
        ⟨fun h => hv ⟨0, .inl ⟨h, rfl⟩⟩, fun h => hv ⟨1, .inr (.inl ⟨h, rfl⟩)⟩,
          fun h => hv ⟨0, .inr (.inr (.inl ⟨h, rfl⟩))⟩, fun h => hv ⟨1, .inr (.inr (.inr ⟨h, rfl⟩))⟩⟩
      clear hv
      interval_cases v <;> first | decide | omega
    rw [hcl]
    intro m hm q hq hlt
    obtain rfl : m = 0 := by omega
    obtain rfl : q = 0 := by omega
    have e : maxAbs 1 (cMat trio l.A v (trioCor v)) = max 0 |cMat trio l.A v (trioCor v) 0 0| := rfl
    rw [e, htol, max_eq_right (abs_nonneg _)] at hlt
    have := abs_nonneg (cMat trio l.A v (trioCor v) 0 0)
    nlinarith

/-- With permeability 1 everywhere nothing is lost. -/
theorem trio_lost {l : Local} (hl : ∀ c < trio.nCells, LocalIs trio (perm fun _ => 1) l c) {s t : Sys}
    (ht : forN (trio.vEnd - trio.vStart) (fun k (r : Res Sys) => r.bind (systemVertex trio l.A (trio.vStart + k)))
        (.ok s) = .ok t) : ∀ v, trio.vStart ≤ v → v < trio.vEnd → NothingLost trio l.A v := by
  intro v h1 h2
  obtain ⟨x, y, hxy⟩ := vertices_ok ht (v - trio.vStart) (by omega)
  rw [show trio.vStart + (v - trio.vStart) = v by omega] at hxy
  exact nothing_lost (trio_star v h1 h2) hxy (trio_entries hl v h1 h2)

theorem trio_outside {v f c : Nat} (h : (v = 3 ∧ f = 15 ∧ c = 0) ∨ (v = 4 ∧ f = 16 ∧ c = 1) ∨
    (v = 6 ∧ f = 17 ∧ c = 2)) : AtBoundary trio trioCor c := by
  refine ⟨v, f, by show 3 ≤ v; omega, by show v < 11; omega, ?_, ⟨?_, ?_, ?_⟩⟩
  · rcases h with ⟨rfl, rfl, rfl⟩ | ⟨rfl, rfl, rfl⟩ | ⟨rfl, rfl, rfl⟩ <;> decide
  · have : c ∈ trio.cells v ∧ trio.face c (trioCor v c) 1 = f ∧ (trio.emap c (trioCor v c*2 + 1)).sign ≠ 0 := by
      rcases h with ⟨rfl, rfl, rfl⟩ | ⟨rfl, rfl, rfl⟩ | ⟨rfl, rfl, rfl⟩ <;> decide
    exact ⟨this.1, 1, by decide, this.2.1, by unfold Wy.sign; exact_mod_cast this.2.2⟩
  · rcases h with ⟨rfl, rfl, rfl⟩ | ⟨rfl, rfl, rfl⟩ | ⟨rfl, rfl, rfl⟩ <;> decide
  · show (if f < 3 then (4:ℝ) else 2) ≠ 0
    rw [if_neg (by omega)]
    norm_num

/-- Every cell of the trio is at the boundary. -/
theorem trio_tied : Tied trio trioCor := by
  intro c hc
  change c < 3 at hc
  refine ⟨c, .refl, ?_⟩
  interval_cases c
  · exact trio_outside (.inl ⟨rfl, rfl, rfl⟩)
  · exact trio_outside (.inr (.inl ⟨rfl, rfl, rfl⟩))
  · exact trio_outside (.inr (.inr ⟨rfl, rfl, rfl⟩))

/-- Neighbours are linked. -/
example : Linked trio trioCor 0 1 := by
  refine ⟨4, 12, by decide, by decide, by decide, .inl ⟨by decide, ⟨by decide, 0, by decide, by decide, ?_⟩,
    ⟨by decide, 0, by decide, by decide, ?_⟩, by decide, ?_⟩⟩
  · have : (trio.emap 0 (trioCor 4 0*2 + 0)).sign = 1 := by decide
    unfold Wy.sign
    exact_mod_cast this
  · have : (trio.emap 1 (trioCor 4 1*2 + 0)).sign = -1 := by decide
    unfold Wy.sign
    exact_mod_cast this
  · show (if 12 < 3 then (4:ℝ) else 2) ≠ 0
    norm_num

/-- The system of the trio with permeability 1 is positive definite and has exactly one solution. -/
example (l : Local) : ∃ l' s', wyComputeSystem trio (perm fun _ => 1) l ⟨fun _ _ => 0, fun _ => 0⟩ = .ok (l', s') ∧
    (∀ u : Nat → ℝ, u 1 ≠ 0 → 0 < ∑ c ∈ range 3, u c*∑ c' ∈ range 3, s'.K c c'*u c') ∧
    ∃ p, SolvesCells trio id s'.K s'.F p := by
  obtain ⟨l', s', hok, _⟩ := C119_regular_partial trio (perm fun _ => 1) trioCor trio_star
    (trio_regular fun _ => one_pos) trio_cov trio_size l ⟨fun _ _ => 0, fun _ => 0⟩ (fun _ => 0) (fun _ _ => 0)
  obtain ⟨hl, t, ht, _⟩ := system_parts hok
  have hlost := trio_lost (local_ok hl) ht
  refine ⟨l', s', hok, fun u hu => ?_, ?_⟩
  · exact C183_positive_partial trio _ l l' _ s' trioCor id trio_numbers (by decide) trio_star
      (trio_regular fun _ => one_pos) trio_cov hlost trio_tied (fun _ _ => rfl) hok u ⟨1, by decide, hu⟩
  · exact (C183_one_solution_partial trio _ l l' _ s' trioCor id trio_numbers (by decide) trio_star
      (trio_regular fun _ => one_pos) trio_cov hlost trio_tied (fun _ _ => rfl) hok s'.F).1

/-- The permeability of the middle cell is small. -/
def tight (c : Nat) : ℝ := if c = 1 then 1/10^13 else 1

theorem tight_pos (c : Nat) : 0 < tight c := by
  unfold tight
  split <;> positivity

/-- All entries of the middle cell are left out. -/
theorem tight_kept {l : Local} (hl : ∀ c < trio.nCells, LocalIs trio (perm tight) l c) {v : Nat} (h1 : 3 ≤ v)
    (h2 : v < 11) (hc : 1 ∈ trio.cells v) (q : Nat) (hq : q < (trio.cells v).length) :
    kept trio.tol (trio.cells v).length (cMat trio l.A v (trioCor v)) (Ci trio v 1) q = 0 := by
  have htol : trio.tol = 10^4/2^52 := rfl
  have hv : ∃ a, (v = 4 ∧ a = 0) ∨ (v = 5 ∧ a = 1) ∨ (v = 8 ∧ a = 0) ∨ (v = 9 ∧ a = 1) := by
    have : v = 4 ∨ v = 5 ∨ v = 8 ∨ v = 9 := by
      clear hq
      revert hc
      interval_cases v <;> decide
    rcases this with rfl | rfl | rfl | rfl
    · exact ⟨0, by omega⟩
    · exact ⟨1, by omega⟩
    · exact ⟨0, by omega⟩
    · exact ⟨1, by omega⟩
  obtain ⟨a, hv⟩ := hv
  have hcl : (trio.cells v).length = 2 := by
    rcases hv with ⟨rfl, rfl⟩ | ⟨rfl, rfl⟩ | ⟨rfl, rfl⟩ | ⟨rfl, rfl⟩ <;> decide
  have hCi : Ci trio v 1 = 1 - a := by
    rcases hv with ⟨rfl, rfl⟩ | ⟨rfl, rfl⟩ | ⟨rfl, rfl⟩ | ⟨rfl, rfl⟩ <;> decide
  obtain ⟨e1, e2, e3, e4⟩ := trio_stencil tight_pos hl hv
  obtain ⟨m1, m2⟩ := maxAbs_two (cMat trio l.A v (trioCor v))
  rw [hcl] at hq ⊢
  unfold kept
  rw [hCi, if_pos]
  have ha : a = 0 ∨ a = 1 := by omega
  rcases ha with rfl | rfl
  · have hm : 1 ≤ maxAbs 2 (cMat trio l.A v (trioCor v)) := by
      refine le_trans ?_ m1
      rw [e1]
      norm_num [tight, abs_of_pos]
    interval_cases q
    · show |cMat trio l.A v (trioCor v) 1 0| < _
      rw [e3, htol]
      norm_num [tight, abs_of_pos]
      linarith
    · show |cMat trio l.A v (trioCor v) 1 1| < _
      rw [e4, htol]
      norm_num [tight, abs_of_pos]
      linarith
  · have hm : 1 ≤ maxAbs 2 (cMat trio l.A v (trioCor v)) := by
      refine le_trans ?_ m2
      rw [e4]
      norm_num [tight, abs_of_pos]
    interval_cases q
    · show |cMat trio l.A v (trioCor v) 0 0| < _
      rw [e1, htol]
      norm_num [tight, abs_of_pos]
      linarith
    · show |cMat trio l.A v (trioCor v) 0 1| < _
      rw [e2, htol]
      norm_num [tight, abs_of_pos]
      linarith

/-- C183 is violated: a cell whose permeability is `10^-13` of that of its neighbours has no entry in the
matrix, although it holds a source of 4.  The system has no solution. -/
theorem C183_violated : ∃ (w : Wy) (K : Nat → Nat → ℝ) (cor : Nat → Nat → Nat) (num : Nat → Nat),
    GlobalNumbers w num ∧ (∀ c < w.nCells, 0 ≤ w.global c) ∧
    (∀ v, w.vStart ≤ v → v < w.vEnd → Star w v (cor v)) ∧ (∀ c < w.nCells, Regular w K c) ∧
    (∀ v, w.vStart ≤ v → v < w.vEnd → ∀ f ∈ w.faces v, Covered w v (cor v) f) ∧ Tied w cor ∧
    ∀ l, ∃ l' s', wyComputeSystem w K l ⟨fun _ _ => 0, fun _ => 0⟩ = .ok (l', s') ∧
      (∀ c' < w.nCells, s'.K (num 1) (num c') = 0) ∧ s'.F (num 1) = 4 ∧
      ¬ ∃ p, SolvesCells w num s'.K (fun c => s'.F (num c)) p := by
  refine ⟨trio, perm tight, trioCor, id, trio_numbers, by decide, trio_star, trio_regular tight_pos, trio_cov,
    trio_tied, fun l => ?_⟩
  obtain ⟨l', s', hok, _⟩ := C119_regular_partial trio (perm tight) trioCor trio_star
    (trio_regular tight_pos) trio_cov trio_size l ⟨fun _ _ => 0, fun _ => 0⟩ (fun _ => 0) (fun _ _ => 0)
  have hrow : ∀ u : Nat → ℝ, ∑ c' ∈ range trio.nCells, s'.K (id 1) (id c')*u c' = 0 := by
    intro u
    rw [row_kept trio_numbers trio_star (fun _ _ => rfl) hok u (by decide : 1 < trio.nCells) (by decide)]
    refine sum_eq_zero fun k hk => ?_
    split
    · rename_i hm
      refine sum_eq_zero fun q hq => ?_
      have hk' : k < 8 := mem_range.1 hk
      rw [tight_kept (local_ok (system_parts hok).1) (by show 3 ≤ 3 + k; omega) (by show 3 + k < 11; omega) hm q
        (mem_range.1 hq), zero_mul]
    · rfl
  have hF : s'.F 1 = 4 := by
    obtain ⟨hl, t, ht, rfl⟩ := system_parts hok
    have h2 := (system_row (cor := trioCor) (fun _ => 0) trio_star (row_inj trio_numbers) ht
      (by decide : 1 < trio.nCells) (by decide)).2
    have hd : ∀ v m, dVec trio l'.A v (trioCor v) m = 0 := by
      intro v m
      have : vec (trio.faces v).length (gVec trio v (trioCor v)) = 0 := by
        funext r
        show gVec trio v (trioCor v) r = 0
        unfold gVec
        refine sum_eq_zero fun c _ => sum_eq_zero fun i _ => ?_
        split
        · show _*(0:ℝ) = 0
          rw [mul_zero]
        · rfl
      unfold dVec
      rw [this, Matrix.mulVec_zero]
      unfold entry1
      split <;> rfl
    have ht1 : t.F (trio.row 1) = 0 := by
      simp only [mul_zero, sum_const_zero, zero_sub, sub_zero, hd, ite_self, add_zero, neg_zero] at h2
      linarith
    have hr1 : trio.row 1 = 1 := by decide
    rw [hr1] at ht1
    rw [forcing_F, ht1, sum_eq_single 1]
    · rw [if_pos (by decide), if_pos (by decide), local_source (local_ok hl 1 (by decide))]
      show 0 + (if true = true then ∑ q ∈ range 4, (1:ℝ)*1 else 0) = 4
      norm_num
    · intro c hc hne
      split
      · rw [if_neg]
        have hc' := mem_range.1 hc
        change c < 3 at hc'
        intro h
        apply hne
        clear hc
        revert h
        interval_cases c <;> decide
      · rfl
    · intro h
      exact absurd (mem_range.2 (by decide)) h
  refine ⟨l', s', hok, ?_, hF, ?_⟩
  · intro c' hc'
    have h := hrow (fun c => if c = c' then 1 else 0)
    rw [sum_eq_single_of_mem c' (mem_range.2 hc')] at h
    · rw [if_pos rfl, mul_one] at h
      exact h
    · intro b _ hb
      rw [if_neg hb, mul_zero]
  · rintro ⟨p, hp⟩
    have h := hp 1 (by decide)
    rw [hrow p] at h
    change (0:ℝ) = s'.F 1 at h
    rw [hF] at h
    norm_num at h


end

end TDy.Fe.Props.WyEnergyWitness
