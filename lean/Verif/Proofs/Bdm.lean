import Mathlib.Tactic.Ring
import Mathlib.Tactic.Linarith
import Mathlib.Algebra.BigOperators.Intervals
import Mathlib.Algebra.BigOperators.Ring.Finset
import Verif.Model.Bdm
import Verif.Proofs.Fvtpf
import Verif.Proofs.MpfaoFlux

/-!
# The element matrix of the BDM method in closed form
-/

namespace TDy.Fe.Proofs

open TDy.Fe Finset
open TDy.Fvtpf (addAt addMat)
open TDy.Fvtpf.Proofs (addAt_apply addMat_apply)

noncomputable section

/-- A loop that adds to a component of its state. -/
theorem forN_adds {σ : Type*} (φ : σ → ℝ) (g : Nat → ℝ) (body : Nat → σ → σ) (n : Nat) (s : σ)
    (h : ∀ i < n, ∀ s, φ (body i s) = φ s + g i) :
    φ (forN n body s) = φ s + ∑ i ∈ range n, g i := by
  induction n with
  | zero => simp [forN]
  | succ n ih =>
    rw [forN, h n (by omega), ih (fun i hi => h i (by omega)), sum_range_succ, add_assoc]

/-- Corners and directions are one index. -/
theorem sum_flat (nv dim : Nat) (f : Nat → ℝ) :
    ∑ v ∈ range nv, ∑ d ∈ range dim, f (v*dim + d) = ∑ r ∈ range (nv*dim), f r := by
  induction nv with
  | zero => simp
  | succ n ih => rw [sum_range_succ, ih, Nat.add_mul, Nat.one_mul, sum_range_add]

theorem kDotADotB_eq (K A B : Nat → ℝ) (dim : Nat) :
    kDotADotB K A B dim = ∑ i ∈ range dim, ∑ j ∈ range dim, K (j*dim + i)*A j*B i := by
  unfold kDotADotB
  rw [forN_adds (fun x : ℝ => x) (fun i => ∑ j ∈ range dim, K (j*dim + i)*A j*B i)]
  · simp
  · intro i _ s
    rw [forN_adds (fun x : ℝ => x) (fun j => K (j*dim + i)*A j) _ dim 0 (fun _ _ _ => rfl), zero_add,
      sum_mul]

theorem aDotB_eq (a b : Nat → ℝ) (dim : Nat) : aDotB a b dim = ∑ i ∈ range dim, a i*b i := by
  unfold aDotB
  rw [forN_adds (fun x : ℝ => x) (fun i => a i*b i) _ dim 0 (fun _ _ _ => rfl), zero_add]

/-- Basis function `r` of a cell at one of its quadrature points. -/
def basisAt (b : Bdm) (p : QPoint) (r : Nat) : Nat → ℝ := fun k =>
  hdivBasis b.dim p.x p.DF p.J (b.dim*r + k)

/-- `(K^-1 u_r, u_s)` by quadrature. -/
def massEntry (b : Bdm) (c : BCell) (kinv : Nat → ℝ) (r s : Nat) : ℝ :=
  ∑ q ∈ range c.nq, kDotADotB kinv (basisAt b (c.pt q) r) (basisAt b (c.pt q) s) b.dim
    *(c.pt q).w*(c.pt q).J

theorem quadrature_K (b : Bdm) (c : BCell) (kinv : Nat → ℝ) (e : Elem) (i j : Nat) :
    (quadrature b c kinv e).K i j = e.K i j +
      if i < b.nv*b.dim ∧ j < b.nv*b.dim then massEntry b c kinv j i else 0 := by
  unfold quadrature
  dsimp only
  rw [forN_adds (fun e : Elem => e.K i j)
    (fun q => if i < b.nv*b.dim ∧ j < b.nv*b.dim then
      kDotADotB kinv (basisAt b (c.pt q) j) (basisAt b (c.pt q) i) b.dim*(c.pt q).w*(c.pt q).J else 0)]
  · congr 1
    unfold massEntry
    split
    · rfl
    · simp
  · intro q _ s
    set val : Nat → Nat → ℝ := fun r t =>
      kDotADotB kinv (basisAt b (c.pt q) r) (basisAt b (c.pt q) t) b.dim*(c.pt q).w*(c.pt q).J with hval
    have hloop : ∀ s : Elem, (forN b.nv (fun vi e => forN b.nv (fun vj e => forN b.dim (fun di e =>
        forN b.dim (fun dj e => (⟨addMat e.K (vj*b.dim + dj) (vi*b.dim + di)
          (kDotADotB kinv (fun k => hdivBasis b.dim (c.pt q).x (c.pt q).DF (c.pt q).J
              (b.dim*(vi*b.dim + di) + k))
            (fun k => hdivBasis b.dim (c.pt q).x (c.pt q).DF (c.pt q).J
              (b.dim*(vj*b.dim + dj) + k)) b.dim*(c.pt q).w*(c.pt q).J), e.F⟩ : Elem)) e) e) e) s).K i j
        = s.K i j + ∑ vi ∈ range b.nv, ∑ vj ∈ range b.nv, ∑ di ∈ range b.dim, ∑ dj ∈ range b.dim,
          if i = vj*b.dim + dj ∧ j = vi*b.dim + di then val (vi*b.dim + di) (vj*b.dim + dj) else 0 := by
      intro s
      refine forN_adds (fun e : Elem => e.K i j) _ _ _ _ (fun vi _ s => ?_)
      refine forN_adds (fun e : Elem => e.K i j) _ _ _ _ (fun vj _ s => ?_)
      refine forN_adds (fun e : Elem => e.K i j) _ _ _ _ (fun di _ s => ?_)
      refine forN_adds (fun e : Elem => e.K i j) _ _ _ _ (fun dj _ s => ?_)
      exact addMat_apply _ _ _ _ _ _
    have hsum : ∑ vi ∈ range b.nv, ∑ vj ∈ range b.nv, ∑ di ∈ range b.dim, ∑ dj ∈ range b.dim,
        (if i = vj*b.dim + dj ∧ j = vi*b.dim + di then val (vi*b.dim + di) (vj*b.dim + dj) else 0)
        = if i < b.nv*b.dim ∧ j < b.nv*b.dim then val j i else 0 := by
      calc _ = ∑ vi ∈ range b.nv, ∑ di ∈ range b.dim, ∑ vj ∈ range b.nv, ∑ dj ∈ range b.dim,
            (if i = vj*b.dim + dj ∧ j = vi*b.dim + di then
              val (vi*b.dim + di) (vj*b.dim + dj) else 0) :=
            sum_congr rfl fun vi _ => sum_comm
        _ = ∑ vi ∈ range b.nv, ∑ di ∈ range b.dim, ∑ t ∈ range (b.nv*b.dim),
            (if i = t ∧ j = vi*b.dim + di then val (vi*b.dim + di) t else 0) :=
            sum_congr rfl fun vi _ => sum_congr rfl fun di _ =>
              sum_flat b.nv b.dim (fun t => if i = t ∧ j = vi*b.dim + di then
                val (vi*b.dim + di) t else 0)
        _ = ∑ r ∈ range (b.nv*b.dim), ∑ t ∈ range (b.nv*b.dim),
            (if i = t ∧ j = r then val r t else 0) :=
            sum_flat b.nv b.dim (fun r => ∑ t ∈ range (b.nv*b.dim),
              if i = t ∧ j = r then val r t else 0)
        _ = _ := by
            by_cases hij : i < b.nv*b.dim ∧ j < b.nv*b.dim
            · rw [if_pos hij, sum_eq_single j, sum_eq_single i]
              · simp
              · intro t _ ht
                rw [if_neg (fun h => ht h.1.symm)]
              · intro h; exact absurd (mem_range.2 hij.1) h
              · intro r _ hr
                exact sum_eq_zero fun t _ => if_neg (fun h => hr h.2.symm)
              · intro h; exact absurd (mem_range.2 hij.2) h
            · rw [if_neg hij]
              refine sum_eq_zero fun r hr => sum_eq_zero fun t ht => if_neg ?_
              rintro ⟨rfl, rfl⟩
              exact hij ⟨mem_range.1 ht, mem_range.1 hr⟩
    rw [← hsum, ← hloop s]
    split <;> rfl

theorem quadrature_F (b : Bdm) (c : BCell) (kinv : Nat → ℝ) (e : Elem) (i : Nat) :
    (quadrature b c kinv e).F i = e.F i +
      if i = b.dim*b.nv ∧ b.hasForcing = true then
        -∑ q ∈ range c.nq, (c.pt q).force*(c.pt q).w*(c.pt q).J else 0 := by
  unfold quadrature
  dsimp only
  rw [forN_adds (fun e : Elem => e.F i)
    (fun q => if i = b.dim*b.nv ∧ b.hasForcing = true then
      -((c.pt q).force*(c.pt q).w*(c.pt q).J) else 0)]
  · congr 1
    split
    · rw [sum_neg_distrib]
    · simp
  · intro q _ s
    have hloop : ∀ s : Elem, ∀ g : Nat → Nat → Nat → Nat → Elem → (Nat → Nat → ℝ),
        (forN b.nv (fun vi e => forN b.nv (fun vj e => forN b.dim (fun di e =>
        forN b.dim (fun dj e => (⟨g vi vj di dj e, e.F⟩ : Elem)) e) e) e) s).F = s.F := by
      intro s g
      refine forN_invariant _ _ _ (fun _ (t : Elem) => t.F = s.F) rfl (fun vi t _ ht => ?_)
      refine forN_invariant _ _ _ (fun _ (t : Elem) => t.F = s.F) ht (fun vj t _ ht => ?_)
      refine forN_invariant _ _ _ (fun _ (t : Elem) => t.F = s.F) ht (fun di t _ ht => ?_)
      exact forN_invariant _ _ _ (fun _ (t : Elem) => t.F = s.F) ht (fun dj t _ ht => ht)
    by_cases hf : b.hasForcing = true
    · rw [if_pos hf]
      dsimp only
      rw [addAt_apply, hloop s]
      simp only [hf, and_true, Nat.add_sub_cancel, neg_mul]
    · rw [if_neg hf, hloop s]
      simp [hf]

/-- The orientation of the unknowns and the coupling with the pressure. -/
theorem orientation_eq (b : Bdm) (c : BCell) (e : Elem) :
    (∀ i < b.dim*b.nv, ∀ j < b.dim*b.nv,
      (orientation b c e).K i j = e.K i j*((c.orient i : ℝ)*(c.orient j : ℝ)))
    ∧ (∀ i < b.dim*b.nv, (orientation b c e).K i (b.dim*b.nv) = -(c.orient i : ℝ)
        ∧ (orientation b c e).K (b.dim*b.nv) i = -(c.orient i : ℝ))
    ∧ (orientation b c e).K (b.dim*b.nv) (b.dim*b.nv) = e.K (b.dim*b.nv) (b.dim*b.nv)
    ∧ (∀ i < b.dim*b.nv, (orientation b c e).F i = e.F i*(c.orient i : ℝ))
    ∧ (orientation b c e).F (b.dim*b.nv) = e.F (b.dim*b.nv) := by
  unfold orientation
  dsimp only
  rw [Nat.add_sub_cancel]
  generalize b.dim*b.nv = n
  have key := forN_invariant n (fun vi (e : Elem) =>
    (⟨wr (wr (forN n (fun vj K => wr K vj (wr (K vj) vi
        (K vj vi*((c.orient vi*c.orient vj : Int) : ℝ)))) e.K) n
      (wr ((forN n (fun vj K => wr K vj (wr (K vj) vi
        (K vj vi*((c.orient vi*c.orient vj : Int) : ℝ)))) e.K) n) vi (-(c.orient vi : ℝ)))) vi
      (wr ((wr (forN n (fun vj K => wr K vj (wr (K vj) vi
        (K vj vi*((c.orient vi*c.orient vj : Int) : ℝ)))) e.K) n
      (wr ((forN n (fun vj K => wr K vj (wr (K vj) vi
        (K vj vi*((c.orient vi*c.orient vj : Int) : ℝ)))) e.K) n) vi (-(c.orient vi : ℝ)))) vi) n
        (-(c.orient vi : ℝ))), wr e.F vi (e.F vi*(c.orient vi : ℝ))⟩ : Elem)) e
    (fun k t =>
      (∀ i < n, ∀ j < n, t.K i j = if j < k then e.K i j*((c.orient i : ℝ)*(c.orient j : ℝ)) else e.K i j)
      ∧ (∀ i < k, t.K i n = -(c.orient i : ℝ) ∧ t.K n i = -(c.orient i : ℝ))
      ∧ t.K n n = e.K n n
      ∧ (∀ i < n, t.F i = if i < k then e.F i*(c.orient i : ℝ) else e.F i)
      ∧ t.F n = e.F n)
    ⟨fun i _ j _ => by simp, fun i hi => absurd hi (by omega), rfl, fun i _ => by simp, rfl⟩ ?_
  · obtain ⟨h1, h2, h3, h4, h5⟩ := key
    refine ⟨fun i hi j hj => ?_, fun i hi => h2 i hi, h3, fun i hi => ?_, h5⟩
    · exact (h1 i hi j hj).trans (if_pos hj)
    · exact (h4 i hi).trans (if_pos hi)
  · rintro k t hk ⟨h1, h2, h3, h4, h5⟩
    -- the inner loop scales column `k`
    have hin : ∀ i j, forN n (fun vj K => wr K vj (wr (K vj) k
        (K vj k*((c.orient k*c.orient vj : Int) : ℝ)))) t.K i j
        = if i < n ∧ j = k then t.K i j*((c.orient k*c.orient i : Int) : ℝ) else t.K i j := by
      intro i j
      have hi := forN_invariant n (fun vj (K : Nat → Nat → ℝ) => wr K vj (wr (K vj) k
        (K vj k*((c.orient k*c.orient vj : Int) : ℝ)))) t.K
        (fun l K => ∀ i j, K i j = if i < l ∧ j = k then
          t.K i j*((c.orient k*c.orient i : Int) : ℝ) else t.K i j)
        (fun i j => by simp) (by
          intro l K _ ih i j
          by_cases hi : i = l
          · subst hi
            rw [wr_same]
            by_cases hj : j = k
            · subst hj
              rw [wr_same, if_pos ⟨by omega, rfl⟩, ih, if_neg (by omega)]
            · rw [wr_other _ _ hj, if_neg (fun h => hj h.2), ih, if_neg (fun h => hj h.2)]
          · rw [wr_other _ _ hi, ih]
            have : i < l ↔ i < l + 1 := by omega
            simp only [this])
      exact hi i j
    refine ⟨?_, ?_, ?_, ?_, ?_⟩ <;> dsimp only
    · intro i hi j hj
      by_cases hik : i = k
      · subst hik
        rw [wr_same, wr_other _ _ (by omega), wr_other _ _ (by omega), hin]
        by_cases hjk : j = i
        · subst hjk
          rw [if_pos ⟨hi, rfl⟩, if_pos (by omega), h1 j hi j hi, if_neg (by omega)]
          push_cast; ring
        · rw [if_neg (fun h => hjk h.2), h1 i hi j hj]
          have : j < i ↔ j < i + 1 := by omega
          simp only [this]
      · rw [wr_other _ _ hik, wr_other _ _ (by omega), hin]
        by_cases hjk : j = k
        · subst hjk
          rw [if_pos ⟨hi, rfl⟩, if_pos (by omega), h1 i hi j hj, if_neg (by omega)]
          push_cast; ring
        · rw [if_neg (fun h => hjk h.2), h1 i hi j hj]
          have : j < k ↔ j < k + 1 := by omega
          simp only [this]
    · intro i hi
      by_cases hik : i = k
      · subst hik
        constructor
        · rw [wr_same, wr_same]
        · rw [wr_other _ _ (by omega), wr_same, wr_same]
      · constructor
        · rw [wr_other _ _ hik, wr_other _ _ (by omega), hin, if_neg (by omega)]
          exact (h2 i (by omega)).1
        · rw [wr_other _ _ (by omega), wr_same, wr_other _ _ hik, hin, if_neg (by omega)]
          exact (h2 i (by omega)).2
    · rw [wr_other _ _ (by omega), wr_same, wr_other _ _ (by omega), hin, if_neg (by omega)]
      exact h3
    · intro i hi
      by_cases hik : i = k
      · subst hik
        rw [wr_same, if_pos (by omega), h4 i hi, if_neg (by omega)]
      · rw [wr_other _ _ hik, h4 i hi]
        have : i < k ↔ i < k + 1 := by omega
        simp only [this]
    · exact (wr_other _ _ (by omega)).trans h5

/-! ### Boundary faces -/

/-- What a boundary face subtracts from entry `i`. -/
def faceTerm (b : Bdm) (c : BCell) (f : BFace) (i : Nat) : ℝ :=
  match faceDirSide b.dim b.nv c.emap f.id with
  | none => 0
  | some (dir, side) => ∑ q ∈ range f.nq, (f.pt q).g*aDotB (fun k =>
      hdivBasis b.dim (singlePoint dir side (f.pt q).y) (f.pt q).DF (f.pt q).J (i*b.dim + k))
        (outwardNormal f) b.dim*(f.pt q).w*(f.pt q).fJ

theorem integrate_ok (b : Bdm) (c : BCell) (f : BFace) (F F' : Nat → ℝ)
    (h : integratePressureBoundary b c f F = .ok F') (i : Nat) :
    F' i = F i - if i < b.nv*b.dim then faceTerm b c f i else 0 := by
  unfold integratePressureBoundary at h
  unfold faceTerm
  split at h
  · exact absurd h (by simp)
  · rename_i dir side hd
    rw [hd]
    have hF := (Res.ok.inj h).symm
    subst hF
    dsimp only
    rw [forN_adds (fun F : Nat → ℝ => F i) (fun q => -(if i < b.nv*b.dim then
      (f.pt q).g*aDotB (fun k =>
      hdivBasis b.dim (singlePoint dir side (f.pt q).y) (f.pt q).DF (f.pt q).J (i*b.dim + k))
        (outwardNormal f) b.dim*(f.pt q).w*(f.pt q).fJ else 0))]
    · rw [sum_neg_distrib, ← sub_eq_add_neg]
      congr 1
      split
      · rfl
      · simp
    · intro q _ gv
      have hi := forN_invariant (b.nv*b.dim) (fun i gv => wr gv i (gv i - (f.pt q).g*aDotB (fun k =>
          hdivBasis b.dim (singlePoint dir side (f.pt q).y) (f.pt q).DF (f.pt q).J (i*b.dim + k))
          (outwardNormal f) b.dim*(f.pt q).w*(f.pt q).fJ)) gv
        (fun n g => ∀ i, g i = gv i + -(if i < n then (f.pt q).g*aDotB (fun k =>
          hdivBasis b.dim (singlePoint dir side (f.pt q).y) (f.pt q).DF (f.pt q).J (i*b.dim + k))
          (outwardNormal f) b.dim*(f.pt q).w*(f.pt q).fJ else 0)) (by simp) (by
          intro n g _ ih i
          by_cases hin : i = n
          · subst hin
            rw [wr_same, ih, if_neg (by omega), if_pos (by omega)]
            ring
          · rw [wr_other _ _ hin, ih]
            have : i < n ↔ i < n + 1 := by omega
            simp only [this])
      exact hi i

theorem boundaryFaces_ok (b : Bdm) (c : BCell) (F F' : Nat → ℝ)
    (h : boundaryFaces b c F = .ok F') (i : Nat) :
    F' i = F i - if i < b.nv*b.dim then
      ∑ f ∈ range c.nFaces, (if (c.face f).isbc && b.hasPressure then faceTerm b c (c.face f) i else 0)
      else 0 := by
  unfold boundaryFaces at h
  revert F' h
  induction c.nFaces with
  | zero =>
    intro F' h
    rw [forN] at h
    obtain rfl := Res.ok.inj h
    simp
  | succ n ih =>
    intro F' h
    rw [forN] at h
    generalize hr : forN n _ (Res.ok F) = r at h ih
    cases r with
    | ok F1 =>
      have h1 := ih F1 rfl
      simp only [Res.bind] at h
      rw [sum_range_succ]
      by_cases hb : ((c.face n).isbc && b.hasPressure) = true
      · rw [if_pos hb] at h ⊢
        rw [integrate_ok b c _ _ _ h, h1]
        split <;> ring
      · rw [if_neg hb] at h ⊢
        obtain rfl := Res.ok.inj h
        rw [h1, add_zero]
    | err F1 => exact absurd h (by simp [Res.bind])
    | ub => exact absurd h (by simp [Res.bind])

theorem boundaryFaces_no_err (b : Bdm) (c : BCell) (F F' : Nat → ℝ) :
    boundaryFaces b c F ≠ .err F' := by
  unfold boundaryFaces
  refine forN_invariant c.nFaces _ _ (fun _ (r : Res (Nat → ℝ)) => ∀ F', r ≠ .err F') (by simp) ?_ F'
  intro n r _ ih F'
  cases r with
  | ok F1 =>
    simp only [Res.bind]
    split
    · unfold integratePressureBoundary
      split <;> simp
    · simp
  | err F1 => exact absurd rfl (ih F1)
  | ub => simp [Res.bind]

/-- The element matrix and vector. -/
structure ElementIs (b : Bdm) (c : BCell) (kinv : Nat → ℝ) (e : Elem) : Prop where
  vv : ∀ i < b.dim*b.nv, ∀ j < b.dim*b.nv,
    e.K i j = massEntry b c kinv j i*((c.orient i : ℝ)*(c.orient j : ℝ))
  vp : ∀ i < b.dim*b.nv, e.K i (b.dim*b.nv) = -(c.orient i : ℝ)
  pv : ∀ i < b.dim*b.nv, e.K (b.dim*b.nv) i = -(c.orient i : ℝ)
  pp : e.K (b.dim*b.nv) (b.dim*b.nv) = 0
  fv : ∀ i < b.dim*b.nv, e.F i = -(∑ f ∈ range c.nFaces,
    (if (c.face f).isbc && b.hasPressure then faceTerm b c (c.face f) i else 0))*(c.orient i : ℝ)
  fp : e.F (b.dim*b.nv) = if b.hasForcing then
    -∑ q ∈ range c.nq, (c.pt q).force*(c.pt q).w*(c.pt q).J else 0

theorem element_ok (b : Bdm) (c : BCell) (kinv : Nat → ℝ) (e : Elem)
    (h : element b c kinv = .ok e) : ElementIs b c kinv e := by
  unfold element at h
  dsimp only at h
  have hcomm : b.nv*b.dim = b.dim*b.nv := Nat.mul_comm _ _
  split at h
  · rename_i F' hF
    obtain rfl := Res.ok.inj h
    obtain ⟨h1, h2, h3, h4, h5⟩ := orientation_eq b c
      ⟨(quadrature b c kinv ⟨fun _ _ => 0, fun _ => 0⟩).K, F'⟩
    have hb := boundaryFaces_ok b c _ _ hF
    refine ⟨?_, fun i hi => (h2 i hi).1, fun i hi => (h2 i hi).2, ?_, ?_, ?_⟩
    · intro i hi j hj
      rw [h1 i hi j hj]
      dsimp only
      rw [quadrature_K, hcomm, if_pos ⟨hi, hj⟩, zero_add]
    · rw [h3]
      dsimp only
      rw [quadrature_K, hcomm, if_neg (by omega), zero_add]
    · intro i hi
      rw [h4 i hi]
      dsimp only
      rw [hb, hcomm, if_pos hi, quadrature_F, if_neg (by omega)]
      ring
    · rw [h5]
      dsimp only
      rw [hb, hcomm, if_neg (by omega), quadrature_F]
      simp
  · rename_i F' hF
    exact absurd hF (boundaryFaces_no_err b c _ _)
  · exact absurd h (by simp)

theorem element_no_err (b : Bdm) (c : BCell) (kinv : Nat → ℝ) (e : Elem) :
    element b c kinv ≠ .err e := by
  unfold element
  dsimp only
  split <;> simp

/-- Every face with a given pressure is one of the faces the corners of the cell refer to. -/
def Located (b : Bdm) (c : BCell) : Prop :=
  ∀ f < c.nFaces, ((c.face f).isbc && b.hasPressure) = true →
    faceDirSide b.dim b.nv c.emap (c.face f).id ≠ none

theorem boundaryFaces_iff (b : Bdm) (c : BCell) (F : Nat → ℝ) :
    (∃ F', boundaryFaces b c F = .ok F') ↔ Located b c := by
  unfold boundaryFaces Located
  induction c.nFaces with
  | zero => simp [forN]
  | succ n ih =>
    rw [forN]
    constructor
    · rintro ⟨F', h⟩
      generalize hr : forN n _ (Res.ok F) = r at h ih
      cases r with
      | ok F1 =>
        intro f hf hb
        by_cases hfn : f = n
        · subst hfn
          simp only [Res.bind, if_pos hb] at h
          intro hn
          unfold integratePressureBoundary at h
          rw [hn] at h
          exact absurd h (by simp)
        · exact ih.1 ⟨F1, rfl⟩ f (by omega) hb
      | err F1 => exact absurd h (by simp [Res.bind])
      | ub => exact absurd h (by simp [Res.bind])
    · intro hl
      obtain ⟨F1, h1⟩ := ih.2 (fun f hf => hl f (by omega))
      rw [h1]
      simp only [Res.bind]
      by_cases hb : ((c.face n).isbc && b.hasPressure) = true
      · rw [if_pos hb]
        unfold integratePressureBoundary
        have := hl n (by omega) hb
        split
        · rename_i hn
          exact absurd hn this
        · exact ⟨_, rfl⟩
      · rw [if_neg hb]
        exact ⟨_, rfl⟩

theorem element_iff (b : Bdm) (c : BCell) (kinv : Nat → ℝ) :
    (∃ e, element b c kinv = .ok e) ↔ Located b c := by
  rw [← boundaryFaces_iff b c (quadrature b c kinv ⟨fun _ _ => 0, fun _ => 0⟩).F]
  unfold element
  dsimp only
  constructor
  · rintro ⟨e, h⟩
    split at h
    · exact ⟨_, by assumption⟩
    · rename_i hF
      exact absurd hF (boundaryFaces_no_err b c _ _)
    · exact absurd h (by simp)
  · rintro ⟨F', h⟩
    rw [h]
    exact ⟨_, rfl⟩

/-! ### All cells -/

/-- The element of a cell. -/
def elemOf (b : Bdm) (c : BCell) (kinv : Nat → ℝ) : Elem :=
  match element b c kinv with
  | .ok e => e
  | _ => ⟨fun _ _ => 0, fun _ => 0⟩

theorem addElement_K (b : Bdm) (c : BCell) (e : Elem) (s : BState) (a a' : Nat) :
    (addElement b c e s).K a a' = s.K a a' + ∑ i ∈ range (b.dim*b.nv + 1), ∑ j ∈ range (b.dim*b.nv + 1),
      if a = c.ltog i ∧ a' = c.ltog j then e.K i j else 0 := by
  unfold addElement
  dsimp only
  refine forN_adds (fun K : Nat → Nat → ℝ => K a a') _ _ _ _ (fun i _ s => ?_)
  exact forN_adds (fun K : Nat → Nat → ℝ => K a a') _ _ _ _ (fun j _ s => addMat_apply _ _ _ _ _ _)

theorem addElement_F (b : Bdm) (c : BCell) (e : Elem) (s : BState) (a : Nat) :
    (addElement b c e s).F a = s.F a + ∑ i ∈ range (b.dim*b.nv + 1),
      if a = c.ltog i then e.F i else 0 := by
  unfold addElement
  dsimp only
  exact forN_adds (fun F : Nat → ℝ => F a) _ _ _ _ (fun i _ s => addAt_apply _ _ _ _)

/-- What the call leaves behind. -/
structure RunIs (lu : (Nat → ℝ) → Nat → ℝ) (b : Bdm) (n : Nat) (s t : BState) : Prop where
  perm : ∀ i, t.perm i = if i < n ∧ (b.cell i).owned = true then inverted lu b.dim (s.perm i)
    else s.perm i
  K : ∀ a a', t.K a a' = s.K a a' + ∑ i ∈ range n, if (b.cell i).owned then
    ∑ k ∈ range (b.dim*b.nv + 1), ∑ l ∈ range (b.dim*b.nv + 1),
      (if a = (b.cell i).ltog k ∧ a' = (b.cell i).ltog l then
        (elemOf b (b.cell i) (inverted lu b.dim (s.perm i))).K k l else 0) else 0
  F : ∀ a, t.F a = s.F a + ∑ i ∈ range n, if (b.cell i).owned then
    ∑ k ∈ range (b.dim*b.nv + 1), (if a = (b.cell i).ltog k then
        (elemOf b (b.cell i) (inverted lu b.dim (s.perm i))).F k else 0) else 0

theorem run_ok (lu : (Nat → ℝ) → Nat → ℝ) (b : Bdm) (s : BState) (n : Nat)
    (hl : ∀ i < n, (b.cell i).owned = true → Located b (b.cell i)) :
    ∃ t, forN n (fun i (r : Res BState) => r.bind (bdmCell lu b i)) (.ok s) = .ok t
      ∧ RunIs lu b n s t := by
  induction n with
  | zero => exact ⟨s, rfl, by simp, by simp, by simp⟩
  | succ n ih =>
    obtain ⟨t, ht, hrun⟩ := ih (fun i hi => hl i (by omega))
    rw [forN, ht]
    simp only [Res.bind]
    unfold bdmCell
    dsimp only
    by_cases ho : (b.cell n).owned = true
    · rw [if_neg (by simp [ho])]
      have hp : t.perm n = s.perm n := by rw [hrun.perm n, if_neg (by omega)]
      obtain ⟨e, he⟩ := (element_iff b (b.cell n) (inverted lu b.dim (t.perm n))).2 (hl n (by omega) ho)
      have hel : elemOf b (b.cell n) (inverted lu b.dim (s.perm n)) = e := by
        unfold elemOf
        rw [← hp, he]
      rw [he]
      refine ⟨_, rfl, ?_, ?_, ?_⟩
      · intro i
        show wr t.perm n (inverted lu b.dim (t.perm n)) i = _
        by_cases hin : i = n
        · subst hin
          rw [wr_same, if_pos ⟨by omega, ho⟩, hp]
        · rw [wr_other _ _ hin, hrun.perm i]
          have : i < n ↔ i < n + 1 := by omega
          simp only [this]
      · intro a a'
        rw [addElement_K, sum_range_succ _ n, if_pos ho, hel]
        show t.K a a' + _ = _
        rw [hrun.K, add_assoc]
      · intro a
        rw [addElement_F, sum_range_succ _ n, if_pos ho, hel]
        show t.F a + _ = _
        rw [hrun.F, add_assoc]
    · rw [if_pos (by simpa using ho)]
      refine ⟨t, rfl, ?_, ?_, ?_⟩
      · intro i
        rw [hrun.perm i]
        by_cases hin : i = n
        · subst hin
          simp [ho]
        · have : i < n ↔ i < n + 1 := by omega
          simp only [this]
      · intro a a'
        rw [sum_range_succ _ n, if_neg ho, add_zero, hrun.K]
      · intro a
        rw [sum_range_succ _ n, if_neg ho, add_zero, hrun.F]

theorem run_located (lu : (Nat → ℝ) → Nat → ℝ) (b : Bdm) (s t : BState) (n : Nat)
    (h : forN n (fun i (r : Res BState) => r.bind (bdmCell lu b i)) (.ok s) = .ok t) :
    ∀ i < n, (b.cell i).owned = true → Located b (b.cell i) := by
  induction n generalizing t with
  | zero => intro i hi; omega
  | succ n ih =>
    rw [forN] at h
    generalize hr : forN n _ (Res.ok s) = r at h ih
    cases r with
    | ok t1 =>
      intro i hi ho
      by_cases hin : i = n
      · subst hin
        simp only [Res.bind] at h
        unfold bdmCell at h
        dsimp only at h
        rw [if_neg (by simp [ho])] at h
        split at h
        · rename_i e he
          exact (element_iff b _ _).1 ⟨_, he⟩
        · rename_i e he
          exact absurd he (element_no_err b _ _ _)
        · exact absurd h (by simp)
      · exact ih t1 rfl i (by omega) ho
    | err t1 => exact absurd h (by simp [Res.bind])
    | ub => exact absurd h (by simp [Res.bind])

theorem compute_ok {lu : (Nat → ℝ) → Nat → ℝ} {b : Bdm} {s t : BState}
    (h : bdmComputeSystem lu b s = .ok t) : RunIs lu b b.nCells s t
      ∧ ∀ i < b.nCells, (b.cell i).owned = true → Located b (b.cell i) := by
  have hl := run_located lu b s t b.nCells h
  obtain ⟨t', ht, hr⟩ := run_ok lu b s b.nCells hl
  have : t' = t := Res.ok.inj (ht.symm.trans h)
  exact ⟨this ▸ hr, hl⟩

/-! ### Matrices in arrays -/

theorem toMatrix_ofMatrix {n : Nat} (M : Matrix (Fin n) (Fin n) ℝ) : toMatrix n (ofMatrix M) = M := by
  ext i j
  have hn : 0 < n := lt_of_le_of_lt (Nat.zero_le _) i.2
  have h1 : (i.1*n + j.1) / n = i.1 := by
    rw [Nat.mul_comm, Nat.mul_add_div hn, Nat.div_eq_of_lt j.2, Nat.add_zero]
  have h2 : (i.1*n + j.1) % n = j.1 := by
    rw [Nat.mul_comm, Nat.mul_add_mod, Nat.mod_eq_of_lt j.2]
  show ofMatrix M (i.1*n + j.1) = M i j
  unfold ofMatrix
  rw [dif_pos ⟨by rw [h1]; exact i.2, by rw [h2]; exact j.2⟩]
  congr 1 <;> exact Fin.ext (by assumption)

theorem inverted_regular (lu : (Nat → ℝ) → Nat → ℝ) (n : Nat) (K : Nat → ℝ)
    (h : (toMatrix n K).det ≠ 0) : inverted lu n K = ofMatrix (toMatrix n K)⁻¹ := by
  unfold inverted inverse
  rw [if_neg h]

theorem toMatrix_apply (n : Nat) (K : Nat → ℝ) (i j : Fin n) : toMatrix n K i j = K (i*n + j) := rfl

end

end TDy.Fe.Proofs
