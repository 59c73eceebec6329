import Mathlib.Tactic.FieldSimp
import Mathlib.Tactic.NormNum
import Mathlib.Tactic.FinCases
import Verif.Spec.Bdm
import Verif.Proofs.Bdm

/-!
# C75, C117: the BDM system
-/

namespace TDy.Fe.Props

open TDy.Fe TDy.Fe.Spec TDy.Fe.Proofs Finset Matrix

noncomputable section

/-- The matrix and the vector start empty. -/
def empty (perm : Nat → Nat → ℝ) : BState := ⟨perm, fun _ _ => 0, fun _ => 0⟩

/-- A call of TDyBDMComputeSystem on empty matrix and vector, and the next one on the permeabilities
this one leaves behind. -/
def again (lu : (Nat → ℝ) → Nat → ℝ) (b : Bdm) (r : Res BState) : Res BState :=
  r.bind fun s => bdmComputeSystem lu b (empty s.perm)

theorem run_same {lu : (Nat → ℝ) → Nat → ℝ} {b : Bdm} {p p' : Nat → Nat → ℝ} {s : BState}
    (h : bdmComputeSystem lu b (empty p) = .ok s)
    (hp : ∀ i < b.nCells, (b.cell i).owned = true → inverted lu b.dim (p i) = inverted lu b.dim (p' i)) :
    ∃ s', bdmComputeSystem lu b (empty p') = .ok s' ∧ s'.K = s.K ∧ s'.F = s.F
      ∧ ∀ i < b.nCells, (b.cell i).owned = true → s'.perm i = s.perm i := by
  obtain ⟨hr, hl⟩ := compute_ok h
  obtain ⟨s', hs', hr'⟩ := run_ok lu b (empty p') b.nCells hl
  refine ⟨s', hs', ?_, ?_, ?_⟩
  · funext a a'
    rw [hr.K, hr'.K]
    refine congrArg₂ _ rfl (sum_congr rfl fun i hi => ?_)
    by_cases ho : (b.cell i).owned = true
    · rw [if_pos ho, if_pos ho]
      have hp' : inverted lu b.dim ((empty p).perm i) = inverted lu b.dim ((empty p').perm i) :=
        hp i (mem_range.1 hi) ho
      rw [hp']
    · rw [if_neg ho, if_neg ho]
  · funext a
    rw [hr.F, hr'.F]
    refine congrArg₂ _ rfl (sum_congr rfl fun i hi => ?_)
    by_cases ho : (b.cell i).owned = true
    · rw [if_pos ho, if_pos ho]
      have hp' : inverted lu b.dim ((empty p).perm i) = inverted lu b.dim ((empty p').perm i) :=
        hp i (mem_range.1 hi) ho
      rw [hp']
    · rw [if_neg ho, if_neg ho]
  · intro i hi ho
    rw [hr.perm i, hr'.perm i, if_pos ⟨hi, ho⟩, if_pos ⟨hi, ho⟩]
    exact (hp i hi ho).symm

/-- **C75, what the second call does.**  The second call assembles the system of the inverse
permeability. -/
theorem C75_second_call_inverse_partial (lu : (Nat → ℝ) → Nat → ℝ) (b : Bdm) (perm perm' : Nat → Nat → ℝ)
    (hK : ∀ i < b.nCells, (b.cell i).owned = true →
      toMatrix b.dim (perm i)*toMatrix b.dim (perm' i) = 1)
    (s : BState) (h : bdmComputeSystem lu b (empty perm) = .ok s) :
    ∃ s2 s', again lu b (.ok s) = .ok s2 ∧ bdmComputeSystem lu b (empty perm') = .ok s'
      ∧ s2.K = s'.K ∧ s2.F = s'.F := by
  obtain ⟨hr, hl⟩ := compute_ok h
  obtain ⟨s', hs', _⟩ := run_ok lu b (empty perm') b.nCells hl
  obtain ⟨s2, h2, h3, h4, _⟩ := run_same (p' := s.perm) hs' (by
    intro i hi ho
    have hdet : (toMatrix b.dim (perm i)).det ≠ 0 := by
      intro h0
      have := congrArg Matrix.det (hK i hi ho)
      rw [det_mul, h0, zero_mul, det_one] at this
      exact zero_ne_one this
    have hdet' : (toMatrix b.dim (perm' i)).det ≠ 0 := by
      intro h0
      have := congrArg Matrix.det (hK i hi ho)
      rw [det_mul, h0, mul_zero, det_one] at this
      exact zero_ne_one this
    have hinv : (toMatrix b.dim (perm i))⁻¹ = toMatrix b.dim (perm' i) :=
      inv_eq_right_inv (hK i hi ho)
    rw [hr.perm i, if_pos ⟨hi, ho⟩]
    show _ = inverted lu b.dim (inverted lu b.dim (perm i))
    rw [inverted_regular lu b.dim (perm i) hdet, inverted_regular lu b.dim (perm' i) hdet',
      inverted_regular lu b.dim (ofMatrix _) (by rw [toMatrix_ofMatrix, hinv]; exact hdet'),
      toMatrix_ofMatrix, hinv])
  exact ⟨s2, s', h2, hs', h3, h4⟩

/-- **C75, partial.**  With regular permeabilities every other call assembles the same system: the
third the system of the first. -/
theorem C75_every_other_call_partial (lu : (Nat → ℝ) → Nat → ℝ) (b : Bdm) (perm : Nat → Nat → ℝ)
    (hK : ∀ i < b.nCells, (b.cell i).owned = true → (toMatrix b.dim (perm i)).det ≠ 0)
    (s : BState) (h : bdmComputeSystem lu b (empty perm) = .ok s) :
    ∃ s3, again lu b (again lu b (.ok s)) = .ok s3 ∧ s3.K = s.K ∧ s3.F = s.F := by
  obtain ⟨hr, hl⟩ := compute_ok h
  obtain ⟨s2, hs2, hr2⟩ := run_ok lu b (empty s.perm) b.nCells hl
  obtain ⟨s3, h3, h4, h5, _⟩ := run_same (p' := s2.perm) h (by
    intro i hi ho
    have hd := hK i hi ho
    have hdi : (toMatrix b.dim (perm i))⁻¹.det ≠ 0 := by
      rw [det_nonsing_inv]
      rw [Ring.inverse_eq_inv']
      exact inv_ne_zero hd
    have h1 : s.perm i = ofMatrix (toMatrix b.dim (perm i))⁻¹ := by
      rw [hr.perm i, if_pos ⟨hi, ho⟩]
      exact inverted_regular lu b.dim (perm i) hd
    have h2 : s2.perm i = ofMatrix (toMatrix b.dim (perm i)) := by
      rw [hr2.perm i, if_pos ⟨hi, ho⟩]
      show inverted lu b.dim (s.perm i) = _
      rw [h1, inverted_regular lu b.dim _ (by rw [toMatrix_ofMatrix]; exact hdi), toMatrix_ofMatrix,
        nonsing_inv_nonsing_inv _ (isUnit_iff_ne_zero.2 hd)]
    rw [h2, inverted_regular lu b.dim (perm i) hd,
      inverted_regular lu b.dim _ (by rw [toMatrix_ofMatrix]; exact hd), toMatrix_ofMatrix])
  refine ⟨s3, ?_, h4, h5⟩
  show again lu b (bdmComputeSystem lu b (empty s.perm)) = _
  rw [show bdmComputeSystem lu b (empty s.perm) = .ok s2 from hs2]
  exact h3

/-! ### The weak form -/

theorem sum_rows (N n : Nat) (l : Nat → Nat) (hl : ∀ r < n, l r < N) (y : Nat → ℝ) (F : Nat → ℝ) :
    ∑ a ∈ range N, y a*∑ i ∈ range n, (if a = l i then F i else 0) = ∑ i ∈ range n, y (l i)*F i := by
  simp only [mul_sum]
  rw [sum_comm]
  refine sum_congr rfl fun i hi => ?_
  rw [sum_eq_single (l i)]
  · simp
  · intro a _ ha
    rw [if_neg ha, mul_zero]
  · intro h
    exact absurd (mem_range.2 (hl i (mem_range.1 hi))) h

theorem sum_rows2 (N n : Nat) (l : Nat → Nat) (hl : ∀ r < n, l r < N) (x y : Nat → ℝ)
    (K : Nat → Nat → ℝ) :
    ∑ a ∈ range N, ∑ a' ∈ range N, y a*x a'*∑ i ∈ range n, ∑ j ∈ range n,
      (if a = l i ∧ a' = l j then K i j else 0) = ∑ i ∈ range n, ∑ j ∈ range n, y (l i)*x (l j)*K i j := by
  calc _ = ∑ a ∈ range N, y a*∑ i ∈ range n, (if a = l i then
        ∑ a' ∈ range N, x a'*∑ j ∈ range n, (if a' = l j then K i j else 0) else 0) := by
        refine sum_congr rfl fun a _ => ?_
        rw [mul_sum]
        simp only [mul_sum]
        rw [sum_comm]
        refine sum_congr rfl fun i _ => ?_
        by_cases ha : a = l i
        · simp only [ha, true_and, if_true, mul_sum]
          exact sum_congr rfl fun _ _ => sum_congr rfl fun _ _ => by ring
        · simp [ha]
    _ = _ := by
        rw [sum_rows N n l hl]
        refine sum_congr rfl fun i _ => ?_
        rw [sum_rows N n l hl, mul_sum]
        exact sum_congr rfl fun j _ => by ring

theorem sum_cells (N n : Nat) (g : Nat → Nat → ℝ) (f : Nat → Nat → Nat → ℝ) :
    ∑ a ∈ range N, ∑ a' ∈ range N, g a a'*∑ i ∈ range n, f a a' i
      = ∑ i ∈ range n, ∑ a ∈ range N, ∑ a' ∈ range N, g a a'*f a a' i := by
  simp only [mul_sum]
  rw [sum_comm' (s := range n) (t := fun _ => range N) (t' := range N) (s' := fun _ => range n) (by simp)]
  exact sum_congr rfl fun a _ => sum_comm

theorem dot_eq (n : Nat) (u v : Nat → ℝ) : (fun k : Fin n => u k) ⬝ᵥ (fun k : Fin n => v k)
    = ∑ k ∈ range n, u k*v k := by
  rw [dotProduct, ← Fin.sum_univ_eq_sum_range (fun k => u k*v k)]

theorem bilinear (n d : Nat) (κ : Nat → Nat → ℝ) (u v : Nat → Nat → ℝ) :
    ∑ k ∈ range d, (∑ l ∈ range d, κ l k*∑ r ∈ range n, u r l)*∑ s ∈ range n, v s k
      = ∑ s ∈ range n, ∑ r ∈ range n, ∑ k ∈ range d, ∑ l ∈ range d, κ l k*u r l*v s k := by
  have h1 : ∀ k, (∑ l ∈ range d, κ l k*∑ r ∈ range n, u r l)*∑ s ∈ range n, v s k
      = ∑ s ∈ range n, ∑ r ∈ range n, ∑ l ∈ range d, κ l k*u r l*v s k := by
    intro k
    rw [mul_sum]
    refine sum_congr rfl fun s _ => ?_
    simp only [mul_sum]
    rw [sum_comm, sum_mul]
    exact sum_congr rfl fun r _ => sum_mul _ _ _
  simp only [h1]
  rw [sum_comm]
  exact sum_congr rfl fun s _ => sum_comm

/-- `(K^-1 u, v)` from the entries of the element matrix. -/
theorem energy_eq (b : Bdm) (c : BCell) (kinv : Nat → ℝ) (K : Matrix (Fin b.dim) (Fin b.dim) ℝ)
    (hK : K.IsSymm) (hinv : toMatrix b.dim kinv = K⁻¹) (x y : Nat → ℝ) :
    ∑ i ∈ range (b.dim*b.nv), ∑ j ∈ range (b.dim*b.nv), y (c.ltog i)*x (c.ltog j)
      *(massEntry b c kinv j i*((c.orient i : ℝ)*(c.orient j : ℝ))) = energy b c K x y := by
  unfold energy massEntry
  have hs : ∀ q, (K⁻¹ *ᵥ velocity b c (hdivBasis b.dim (c.pt q).x (c.pt q).DF (c.pt q).J) x) ⬝ᵥ
      velocity b c (hdivBasis b.dim (c.pt q).x (c.pt q).DF (c.pt q).J) y
      = ∑ i ∈ range (b.dim*b.nv), ∑ j ∈ range (b.dim*b.nv), y (c.ltog i)*x (c.ltog j)
        *(kDotADotB kinv (basisAt b (c.pt q) j) (basisAt b (c.pt q) i) b.dim
          *((c.orient i : ℝ)*(c.orient j : ℝ))) := by
    intro q
    set basis := hdivBasis b.dim (c.pt q).x (c.pt q).DF (c.pt q).J with hbasis
    have hb : ∀ r k, basisAt b (c.pt q) r k = basis (r*b.dim + k) := fun r k => by
      rw [basisAt, Nat.mul_comm]
    have hsym : ∀ k l : Fin b.dim, K⁻¹ k l = kinv (l*b.dim + k) := by
      intro k l
      have : (K⁻¹)ᵀ = K⁻¹ := by rw [transpose_nonsing_inv, hK.eq]
      rw [← this, transpose_apply, ← hinv, toMatrix_apply]
    simp only [dotProduct, mulVec, velocity, hsym, kDotADotB_eq, hb]
    rw [Fin.sum_univ_eq_sum_range (fun k => (∑ l : Fin b.dim, kinv (l*b.dim + k)*
      ∑ r ∈ range (b.dim*b.nv), (c.orient r : ℝ)*x (c.ltog r)*basis (r*b.dim + l))
      *∑ r ∈ range (b.dim*b.nv), (c.orient r : ℝ)*y (c.ltog r)*basis (r*b.dim + k))]
    simp only [fun k => Fin.sum_univ_eq_sum_range (fun l => kinv (l*b.dim + k)*
      ∑ r ∈ range (b.dim*b.nv), (c.orient r : ℝ)*x (c.ltog r)*basis (r*b.dim + l)) b.dim]
    rw [bilinear (b.dim*b.nv) b.dim (fun l k => kinv (l*b.dim + k))
      (fun r l => (c.orient r : ℝ)*x (c.ltog r)*basis (r*b.dim + l))
      (fun r k => (c.orient r : ℝ)*y (c.ltog r)*basis (r*b.dim + k))]
    refine sum_congr rfl fun i _ => sum_congr rfl fun j _ => ?_
    simp only [mul_sum, sum_mul]
    exact sum_congr rfl fun k _ => sum_congr rfl fun l _ => by ring
  simp only [hs, sum_mul, mul_sum]
  calc _ = ∑ i ∈ range (b.dim*b.nv), ∑ q ∈ range c.nq, ∑ j ∈ range (b.dim*b.nv), _ :=
        sum_congr rfl fun i _ => sum_comm
    _ = ∑ q ∈ range c.nq, ∑ i ∈ range (b.dim*b.nv), ∑ j ∈ range (b.dim*b.nv), _ := sum_comm
    _ = _ := sum_congr rfl fun q _ => sum_congr rfl fun i _ => sum_congr rfl fun j _ => by ring

theorem boundary_eq (b : Bdm) (c : BCell) (f : BFace) (y : Nat → ℝ) :
    ∑ i ∈ range (b.dim*b.nv), y (c.ltog i)*(faceTerm b c f i*(c.orient i : ℝ))
      = faceIntegral b c f y := by
  unfold faceTerm faceIntegral
  cases faceDirSide b.dim b.nv c.emap f.id with
  | none => simp
  | some ds =>
    obtain ⟨dir, side⟩ := ds
    dsimp only
    have hn : ∀ k, outwardNormal f k = (open Classical in if f.side < 0 then -1 else 1)*f.normal k := by
      intro k
      unfold outwardNormal
      split <;> ring
    simp only [sum_mul, mul_sum]
    rw [sum_comm]
    refine sum_congr rfl fun q _ => ?_
    have hv : (velocity b c (hdivBasis b.dim (singlePoint dir side (f.pt q).y) (f.pt q).DF (f.pt q).J) y
        ⬝ᵥ fun k => (open Classical in if f.side < 0 then -1 else 1)*f.normal k)
        = ∑ k ∈ range b.dim, (∑ r ∈ range (b.dim*b.nv), (c.orient r : ℝ)*y (c.ltog r)
          *hdivBasis b.dim (singlePoint dir side (f.pt q).y) (f.pt q).DF (f.pt q).J (r*b.dim + k))
          *outwardNormal f k := by
      rw [← dot_eq]
      simp only [hn]
      rfl
    rw [hv]
    simp only [aDotB_eq, mul_sum, sum_mul]
    rw [sum_comm]
    exact sum_congr rfl fun k _ => sum_congr rfl fun i _ => by ring

/-- The contribution of a cell to the bilinear form and the load. -/
theorem cell_form (b : Bdm) (c : BCell) (kinv : Nat → ℝ) (K : Matrix (Fin b.dim) (Fin b.dim) ℝ)
    (hK : K.IsSymm) (hinv : toMatrix b.dim kinv = K⁻¹) (e : Elem) (he : ElementIs b c kinv e)
    (x y : Nat → ℝ) :
    ∑ i ∈ range (b.dim*b.nv + 1), ∑ j ∈ range (b.dim*b.nv + 1), y (c.ltog i)*x (c.ltog j)*e.K i j
      = energy b c K x y - pressure b c x*outflow b c y - pressure b c y*outflow b c x := by
  rw [sum_range_succ, ← energy_eq b c kinv K hK hinv]
  have h1 : ∀ i ∈ range (b.dim*b.nv), ∑ j ∈ range (b.dim*b.nv + 1), y (c.ltog i)*x (c.ltog j)*e.K i j
      = ∑ j ∈ range (b.dim*b.nv), y (c.ltog i)*x (c.ltog j)
        *(massEntry b c kinv j i*((c.orient i : ℝ)*(c.orient j : ℝ)))
        - pressure b c x*((c.orient i : ℝ)*y (c.ltog i)) := by
    intro i hi
    rw [sum_range_succ, he.vp i (mem_range.1 hi), pressure, sub_eq_add_neg]
    refine congrArg₂ _ (sum_congr rfl fun j hj => ?_) (by ring)
    rw [he.vv i (mem_range.1 hi) j (mem_range.1 hj)]
  have h2 : ∑ j ∈ range (b.dim*b.nv + 1), y (c.ltog (b.dim*b.nv))*x (c.ltog j)*e.K (b.dim*b.nv) j
      = -(pressure b c y*outflow b c x) := by
    rw [sum_range_succ, he.pp, mul_zero, add_zero, outflow, mul_sum, ← sum_neg_distrib]
    refine sum_congr rfl fun j hj => ?_
    rw [he.pv j (mem_range.1 hj), pressure]
    ring
  have h3 : ∑ i ∈ range (b.dim*b.nv), pressure b c x*((c.orient i : ℝ)*y (c.ltog i))
      = pressure b c x*outflow b c y := by rw [outflow, mul_sum]
  rw [sum_congr rfl h1, h2, sum_sub_distrib, h3]
  ring

theorem cell_load (b : Bdm) (c : BCell) (kinv : Nat → ℝ) (e : Elem) (he : ElementIs b c kinv e)
    (y : Nat → ℝ) :
    ∑ i ∈ range (b.dim*b.nv + 1), y (c.ltog i)*e.F i
      = -boundaryIntegral b c y - pressure b c y*source b c := by
  rw [sum_range_succ, he.fp, sub_eq_add_neg]
  refine congrArg₂ _ ?_ ?_
  · unfold boundaryIntegral
    rw [← sum_neg_distrib]
    have : ∀ f ∈ range c.nFaces, -(if (c.face f).isbc && b.hasPressure then
        faceIntegral b c (c.face f) y else 0)
        = ∑ i ∈ range (b.dim*b.nv), -(y (c.ltog i)*((if (c.face f).isbc && b.hasPressure then
          faceTerm b c (c.face f) i else 0)*(c.orient i : ℝ))) := by
      intro f _
      rw [sum_neg_distrib]
      split
      · rw [boundary_eq]
      · simp
    rw [sum_congr rfl this, sum_comm]
    refine sum_congr rfl fun i hi => ?_
    rw [he.fv i (mem_range.1 hi), sum_neg_distrib, ← mul_sum, ← sum_mul]
    ring
  · unfold source pressure
    split
    · rw [mul_neg]
      refine congrArg _ (congrArg _ (sum_congr rfl fun q _ => by ring))
    · simp

/-- **C117** The assembled system is the discrete mixed problem: for all coefficients `x` and test
coefficients `y`, `y . K x` is the bilinear form and `y . F` is the load, over the cells the process
owns, each of which has a regular symmetric permeability. -/
theorem C117_system_is_mixed_problem (lu : (Nat → ℝ) → Nat → ℝ) (b : Bdm) (perm : Nat → Nat → ℝ)
    (hK : ∀ i < b.nCells, (b.cell i).owned = true →
      (toMatrix b.dim (perm i)).det ≠ 0 ∧ (toMatrix b.dim (perm i)).IsSymm)
    (N : Nat) (hN : RowsBelow b N) (s : BState) (h : bdmComputeSystem lu b (empty perm) = .ok s)
    (x y : Nat → ℝ) :
    ∑ a ∈ range N, ∑ a' ∈ range N, y a*x a'*s.K a a' = form b perm x y
    ∧ ∑ a ∈ range N, y a*s.F a = load b y := by
  obtain ⟨hr, hl⟩ := compute_ok h
  have hel : ∀ i < b.nCells, (b.cell i).owned = true →
      ElementIs b (b.cell i) (inverted lu b.dim (perm i))
        (elemOf b (b.cell i) (inverted lu b.dim (perm i))) := by
    intro i hi ho
    obtain ⟨e, he⟩ := (element_iff b (b.cell i) (inverted lu b.dim (perm i))).2 (hl i hi ho)
    have : elemOf b (b.cell i) (inverted lu b.dim (perm i)) = e := by unfold elemOf; rw [he]
    rw [this]
    exact element_ok b _ _ _ he
  constructor
  · have h0 : ∀ a a', s.K a a' = ∑ i ∈ range b.nCells, if (b.cell i).owned then
        ∑ k ∈ range (b.dim*b.nv + 1), ∑ l ∈ range (b.dim*b.nv + 1),
        (if a = (b.cell i).ltog k ∧ a' = (b.cell i).ltog l then
        (elemOf b (b.cell i) (inverted lu b.dim (perm i))).K k l else 0) else 0 := by
      intro a a'
      rw [hr.K]
      exact zero_add _
    simp only [h0]
    unfold form
    calc _ = ∑ i ∈ range b.nCells, ∑ a ∈ range N, ∑ a' ∈ range N, y a*x a'*
          (if (b.cell i).owned then
          ∑ k ∈ range (b.dim*b.nv + 1), ∑ l ∈ range (b.dim*b.nv + 1),
          (if a = (b.cell i).ltog k ∧ a' = (b.cell i).ltog l then
          (elemOf b (b.cell i) (inverted lu b.dim (perm i))).K k l else 0) else 0) := by
          exact sum_cells N b.nCells (fun a a' => y a*x a') _
      _ = _ := by
          refine sum_congr rfl fun i hi => ?_
          by_cases ho : (b.cell i).owned = true
          · simp only [if_pos ho]
            rw [sum_rows2 N (b.dim*b.nv + 1) (b.cell i).ltog (hN i (mem_range.1 hi) ho)]
            refine cell_form b (b.cell i) _ _ (hK i (mem_range.1 hi) ho).2 ?_ _ (hel i (mem_range.1 hi) ho) x y
            rw [inverted_regular lu b.dim _ (hK i (mem_range.1 hi) ho).1, toMatrix_ofMatrix]
          · simp [ho]
  · have h0 : ∀ a, s.F a = ∑ i ∈ range b.nCells, if (b.cell i).owned then
        ∑ k ∈ range (b.dim*b.nv + 1), (if a = (b.cell i).ltog k then
        (elemOf b (b.cell i) (inverted lu b.dim (perm i))).F k else 0) else 0 := by
      intro a
      rw [hr.F]
      exact zero_add _
    simp only [h0, mul_sum]
    rw [sum_comm]
    unfold load
    refine sum_congr rfl fun i hi => ?_
    by_cases ho : (b.cell i).owned = true
    · simp only [if_pos ho]
      rw [sum_rows N (b.dim*b.nv + 1) (b.cell i).ltog (hN i (mem_range.1 hi) ho)]
      exact cell_load b (b.cell i) _ _ (hel i (mem_range.1 hi) ho) y
    · simp [ho]

/-! ### One square -/

namespace BdmWitness

/-- The cell `[-1,1]^2` with the vertex quadrature, permeability `k`, no boundary condition. -/
def square : Bdm where
  dim := 2
  nv := 4
  nCells := 1
  cell := fun _ =>
    { owned := true, ltog := fun r => r, orient := fun r => if r = 0 then -1 else 1, emap := fun _ => 0, nq := 4,
      pt := fun q => ⟨quadX q, 1, fun k => if k = 0 ∨ k = 3 then 1 else 0, 1, 3⟩,
      nFaces := 4, face := fun f => ⟨f, true, fun _ => 0, 0, 0, fun _ => ⟨fun _ => 0, 0, 0, fun _ => 0, 0, 0⟩⟩ }
  hasForcing := true
  hasPressure := false

/-- The scalar permeability `k`. -/
def perm (k : ℝ) : Nat → Nat → ℝ := fun _ i => if i = 0 ∨ i = 3 then k else 0

theorem perm_matrix (k : ℝ) (c : Nat) : toMatrix 2 (perm k c) = k • (1 : Matrix (Fin 2) (Fin 2) ℝ) := by
  ext i j
  fin_cases i <;> fin_cases j <;> simp [toMatrix_apply, perm]

theorem perm_det (k : ℝ) (hk : k ≠ 0) (c : Nat) : (toMatrix 2 (perm k c)).det ≠ 0 := by
  rw [perm_matrix, det_smul, det_one]
  simp [hk]

theorem perm_symm (k : ℝ) (c : Nat) : (toMatrix 2 (perm k c)).IsSymm := by
  rw [perm_matrix]
  exact (isSymm_one).smul k

theorem perm_inverse (k : ℝ) (hk : k ≠ 0) (c : Nat) :
    toMatrix 2 (perm k c)*toMatrix 2 (perm k⁻¹ c) = 1 := by
  rw [perm_matrix, perm_matrix, smul_mul_smul_comm, mul_inv_cancel₀ hk, one_smul, one_mul]

theorem located (i : Nat) : Located square (square.cell i) := by
  intro f _ h
  simp [square] at h

/-- The first entry of the matrix. -/
theorem entry (lu : (Nat → ℝ) → Nat → ℝ) (k : ℝ) (hk : k ≠ 0) (s : BState)
    (h : bdmComputeSystem lu square (empty (perm k)) = .ok s) : s.K 0 0 = k⁻¹ := by
  obtain ⟨hr, hl⟩ := compute_ok h
  obtain ⟨e, he⟩ := (element_iff square (square.cell 0) (inverted lu 2 (perm k 0))).2 (located 0)
  have hel : elemOf square (square.cell 0) (inverted lu square.dim ((empty (perm k)).perm 0)) = e := by
    unfold elemOf
    show (match element square (square.cell 0) (inverted lu 2 (perm k 0)) with
      | .ok e => e
      | _ => ⟨fun _ _ => 0, fun _ => 0⟩) = e
    rw [he]
  have hE := element_ok _ _ _ _ he
  have hinv : inverted lu 2 (perm k 0) = ofMatrix (k⁻¹ • (1 : Matrix (Fin 2) (Fin 2) ℝ)) := by
    rw [inverted_regular lu 2 _ (perm_det k hk 0), inv_eq_right_inv (perm_inverse k hk 0), perm_matrix]
  have h00 : s.K 0 0 = e.K 0 0 := by
    rw [hr.K]
    show (0 : ℝ) + ∑ i ∈ range 1, (if true = true then _ else _) = _
    rw [zero_add, sum_range_one, if_pos rfl]
    rw [hel]
    rw [sum_eq_single 0, sum_eq_single 0]
    · rfl
    · intro j _ hj
      exact if_neg (fun hh => hj hh.2.symm)
    · intro hn; exact absurd (mem_range.2 (by decide)) hn
    · intro j _ hj
      exact sum_eq_zero fun l _ => if_neg (fun hh => hj hh.1.symm)
    · intro hn; exact absurd (mem_range.2 (by decide)) hn
  rw [h00, hE.vv 0 (by decide) 0 (by decide), hinv]
  have hq : ∀ q, (square.cell 0).pt q = ⟨quadX q, 1, fun k => if k = 0 ∨ k = 3 then 1 else 0, 1, 3⟩ :=
    fun _ => rfl
  have hd : square.dim = 2 := rfl
  have hnq : (square.cell 0).nq = 4 := rfl
  have ho : (square.cell 0).orient 0 = -1 := rfl
  simp [massEntry, hnq, hq, hd, ho, kDotADotB_eq, basisAt, hdivBasis, hdivBasisQuad, piola, forN,
    sum_range_succ, quadRef, quadX, ofMatrix]
  ring

end BdmWitness

/-- **C75 violated.**  The call inverts the permeabilities in place, so the next call assembles another
system. -/
theorem C75_violated (lu : (Nat → ℝ) → Nat → ℝ) : ∃ (b : Bdm) (perm : Nat → Nat → ℝ) (s s2 : BState),
    (∀ i < b.nCells, (toMatrix b.dim (perm i)).det ≠ 0 ∧ (toMatrix b.dim (perm i)).IsSymm)
    ∧ bdmComputeSystem lu b (empty perm) = .ok s ∧ again lu b (.ok s) = .ok s2 ∧ s2.K ≠ s.K := by
  obtain ⟨s, hs, _⟩ := run_ok lu BdmWitness.square (empty (BdmWitness.perm 2)) 1
    (fun i _ _ => BdmWitness.located i)
  obtain ⟨s2, s', h2, hs', hK, _⟩ := C75_second_call_inverse_partial lu BdmWitness.square
    (BdmWitness.perm 2) (BdmWitness.perm 2⁻¹) (fun i _ _ => BdmWitness.perm_inverse 2 (by norm_num) i) s hs
  refine ⟨BdmWitness.square, BdmWitness.perm 2, s, s2, fun i _ =>
    ⟨BdmWitness.perm_det 2 (by norm_num) i, BdmWitness.perm_symm 2 i⟩, hs, h2, ?_⟩
  intro h
  have h1 := BdmWitness.entry lu 2 (by norm_num) s hs
  have h3 := BdmWitness.entry lu 2⁻¹ (by norm_num) s' hs'
  rw [← hK, h] at h3
  rw [h1] at h3
  norm_num at h3

example (lu : (Nat → ℝ) → Nat → ℝ) : RowsBelow BdmWitness.square 9
    ∧ (∀ i < BdmWitness.square.nCells, (BdmWitness.square.cell i).owned = true →
      (toMatrix BdmWitness.square.dim (BdmWitness.perm 2 i)).det ≠ 0
      ∧ (toMatrix BdmWitness.square.dim (BdmWitness.perm 2 i)).IsSymm)
    ∧ ∃ s, bdmComputeSystem lu BdmWitness.square (empty (BdmWitness.perm 2)) = .ok s := by
  refine ⟨fun i _ _ r hr => hr, fun i _ _ => ⟨BdmWitness.perm_det 2 (by norm_num) i,
    BdmWitness.perm_symm 2 i⟩, ?_⟩
  obtain ⟨s, hs, _⟩ := run_ok lu BdmWitness.square (empty (BdmWitness.perm 2)) 1
    (fun i _ _ => BdmWitness.located i)
  exact ⟨s, hs⟩

end

end TDy.Fe.Props
