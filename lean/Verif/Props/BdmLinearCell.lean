import Verif.Props.BdmRest
import Verif.Props.BdmUnique
import Verif.Spec.BdmLinear

/-!
# The basis functions of the BDM method and linear pressures, on the reference cell
-/

namespace TDy.Fe.Props

open TDy.Fe TDy.Fe.Spec TDy.Fe.Proofs Finset Matrix

noncomputable section

/-- The point of the face of unknown `r`, a third of the way from its centre to the corner. -/
def thirdOf (dim r : Nat) : Nat → ℝ := fun j => quadX (r / dim) j*(if j = r % dim then 1 else 1/3)

theorem moment0 : ∫ t in (-1 : ℝ)..1, t^0 = 2 := by rw [integral_pow]; norm_num
theorem moment1 : ∫ t in (-1 : ℝ)..1, t^1 = 0 := by rw [integral_pow]; norm_num
theorem moment2 : ∫ t in (-1 : ℝ)..1, t^2 = 2/3 := by rw [integral_pow]; norm_num

/-- The values of a rule on the line, the square and the cube. -/
theorem rule1 (nq : Nat) (w : Nat → ℝ) (x : Nat → Nat → ℝ) (h : ExactRule 1 nq w x) (c0 c1 c2 : ℝ) :
    ∑ q ∈ range nq, w q*(c0 + c1*x q 0 + c2*x q 0^2) = 2*c0 + 2/3*c2 := by
  have h0 := h (fun _ => 0) (by intros; omega)
  have h1 := h (fun _ => 1) (by intros; omega)
  have h2 := h (fun _ => 2) (by intros; omega)
  simp only [prod_range_one, moment0, moment1, moment2] at h0 h1 h2
  calc _ = c0*∑ q ∈ range nq, w q*x q 0^0 + c1*∑ q ∈ range nq, w q*x q 0^1
        + c2*∑ q ∈ range nq, w q*x q 0^2 := by
        rw [mul_sum, mul_sum, mul_sum, ← sum_add_distrib, ← sum_add_distrib]
        exact sum_congr rfl fun _ _ => by ring
    _ = _ := by rw [h0, h1, h2]; ring

def expo (i j k : Nat) : Nat → Nat := fun d => if d = 0 then i else if d = 1 then j else k

theorem rule2 (nq : Nat) (w : Nat → ℝ) (x : Nat → Nat → ℝ) (h : ExactRule 2 nq w x)
    (c00 c10 c01 c11 c20 c02 c21 c12 : ℝ) :
    ∑ q ∈ range nq, w q*(c00 + c10*x q 0 + c01*x q 1 + c11*(x q 0*x q 1) + c20*x q 0^2 + c02*x q 1^2
      + c21*(x q 0^2*x q 1) + c12*(x q 0*x q 1^2)) = 4*c00 + 4/3*c20 + 4/3*c02 := by
  have hm : ∀ i j, i ≤ 2 → j ≤ 2 → ∑ q ∈ range nq, w q*(x q 0^i*x q 1^j)
      = (∫ t in (-1 : ℝ)..1, t^i)*∫ t in (-1 : ℝ)..1, t^j := by
    intro i j hi hj
    have := h (expo i j 0) (by
      intro d _
      unfold expo
      split
      · exact hi
      · split
        · exact hj
        · omega)
    simpa [prod_range_succ, expo] using this
  have h00 := hm 0 0 (by omega) (by omega)
  have h10 := hm 1 0 (by omega) (by omega)
  have h01 := hm 0 1 (by omega) (by omega)
  have h11 := hm 1 1 (by omega) (by omega)
  have h20 := hm 2 0 (by omega) (by omega)
  have h02 := hm 0 2 (by omega) (by omega)
  have h21 := hm 2 1 (by omega) (by omega)
  have h12 := hm 1 2 (by omega) (by omega)
  rw [moment0] at h00 h10 h01 h20 h02
  rw [moment1] at h10 h01 h11 h21 h12
  rw [moment2] at h20 h02
  calc _ = c00*∑ q ∈ range nq, w q*(x q 0^0*x q 1^0) + c10*∑ q ∈ range nq, w q*(x q 0^1*x q 1^0)
        + c01*∑ q ∈ range nq, w q*(x q 0^0*x q 1^1) + c11*∑ q ∈ range nq, w q*(x q 0^1*x q 1^1)
        + c20*∑ q ∈ range nq, w q*(x q 0^2*x q 1^0) + c02*∑ q ∈ range nq, w q*(x q 0^0*x q 1^2)
        + c21*∑ q ∈ range nq, w q*(x q 0^2*x q 1^1) + c12*∑ q ∈ range nq, w q*(x q 0^1*x q 1^2) := by
        simp only [mul_sum, ← sum_add_distrib]
        exact sum_congr rfl fun _ _ => by ring
    _ = _ := by rw [h00, h10, h01, h11, h20, h02, h21, h12]; ring

theorem rule3 (nq : Nat) (w : Nat → ℝ) (x : Nat → Nat → ℝ) (h : ExactRule 3 nq w x) (i j k : Nat)
    (hi : i ≤ 2) (hj : j ≤ 2) (hk : k ≤ 2) : ∑ q ∈ range nq, w q*(x q 0^i*x q 1^j*x q 2^k)
      = (∫ t in (-1 : ℝ)..1, t^i)*(∫ t in (-1 : ℝ)..1, t^j)*∫ t in (-1 : ℝ)..1, t^k := by
  have := h (expo i j k) (by
    intro d _
    unfold expo
    split
    · exact hi
    · split
      · exact hj
      · exact hk)
  simpa [prod_range_succ, expo] using this

/-- The product of the linear functions of a corner. -/
theorem rule3_corner (nq : Nat) (w : Nat → ℝ) (x : Nat → Nat → ℝ) (h : ExactRule 3 nq w x) (a b c s : ℝ) :
    ∑ q ∈ range nq, w q*(s*((1 + a*x q 0)*(1 + b*x q 1)*(1 + c*x q 2))/8) = s := by
  have hm := rule3 nq w x h
  calc _ = s/8*∑ q ∈ range nq, w q*(x q 0^0*x q 1^0*x q 2^0)
        + s*a/8*∑ q ∈ range nq, w q*(x q 0^1*x q 1^0*x q 2^0)
        + s*b/8*∑ q ∈ range nq, w q*(x q 0^0*x q 1^1*x q 2^0)
        + s*c/8*∑ q ∈ range nq, w q*(x q 0^0*x q 1^0*x q 2^1)
        + s*a*b/8*∑ q ∈ range nq, w q*(x q 0^1*x q 1^1*x q 2^0)
        + s*a*c/8*∑ q ∈ range nq, w q*(x q 0^1*x q 1^0*x q 2^1)
        + s*b*c/8*∑ q ∈ range nq, w q*(x q 0^0*x q 1^1*x q 2^1)
        + s*a*b*c/8*∑ q ∈ range nq, w q*(x q 0^1*x q 1^1*x q 2^1) := by
        simp only [mul_sum, ← sum_add_distrib]
        exact sum_congr rfl fun _ _ => by ring
    _ = _ := by
        rw [hm 0 0 0, hm 1 0 0, hm 0 1 0, hm 0 0 1, hm 1 1 0, hm 1 0 1, hm 0 1 1, hm 1 1 1, moment0, moment1]
        · ring
        all_goals omega

/-- `1 - x_e^2`, alone or times a linear function of another coordinate. -/
theorem rule3_side (nq : Nat) (w : Nat → ℝ) (x : Nat → Nat → ℝ) (h : ExactRule 3 nq w x) (s b : ℝ)
    (e f : Nat) (he : e < 3) (hf : f < 3) (hne : e ≠ f) :
    ∑ q ∈ range nq, w q*(s*(1 - x q e^2)*(1 + b*x q f)/16) = s*(1/3) := by
  have hm := rule3 nq w x h
  have h0 := hm 0 0 0 (by omega) (by omega) (by omega)
  have hL : ∑ q ∈ range nq, w q*x q f = 0 := by
    interval_cases f
    · have := hm 1 0 0 (by omega) (by omega) (by omega)
      simpa [integral_pow] using this
    · have := hm 0 1 0 (by omega) (by omega) (by omega)
      simpa [integral_pow] using this
    · have := hm 0 0 1 (by omega) (by omega) (by omega)
      simpa [integral_pow] using this
  have hQ : ∑ q ∈ range nq, w q*x q e^2 = 8/3 := by
    interval_cases e
    · have := hm 2 0 0 (by omega) (by omega) (by omega)
      rw [moment0, moment2] at this
      norm_num at this
      exact this
    · have := hm 0 2 0 (by omega) (by omega) (by omega)
      rw [moment0, moment2] at this
      norm_num at this
      exact this
    · have := hm 0 0 2 (by omega) (by omega) (by omega)
      rw [moment0, moment2] at this
      norm_num at this
      exact this
  have hQL : ∑ q ∈ range nq, w q*(x q e^2*x q f) = 0 := by
    have key : ∀ i j k, i ≤ 2 → j ≤ 2 → k ≤ 2 → (i = 1 ∨ j = 1 ∨ k = 1) →
        ∑ q ∈ range nq, w q*(x q 0^i*x q 1^j*x q 2^k) = 0 := by
      intro i j k hi hj hk h1
      rw [hm i j k hi hj hk]
      rcases h1 with rfl | rfl | rfl <;> rw [moment1] <;> ring
    interval_cases e <;> interval_cases f
    · exact absurd rfl hne
    · refine Eq.trans (sum_congr rfl fun q _ => ?_) (key 2 1 0 (by omega) (by omega) (by omega) (by omega)); ring
    · refine Eq.trans (sum_congr rfl fun q _ => ?_) (key 2 0 1 (by omega) (by omega) (by omega) (by omega)); ring
    · refine Eq.trans (sum_congr rfl fun q _ => ?_) (key 1 2 0 (by omega) (by omega) (by omega) (by omega)); ring
    · exact absurd rfl hne
    · refine Eq.trans (sum_congr rfl fun q _ => ?_) (key 0 2 1 (by omega) (by omega) (by omega) (by omega)); ring
    · refine Eq.trans (sum_congr rfl fun q _ => ?_) (key 1 0 2 (by omega) (by omega) (by omega) (by omega)); ring
    · refine Eq.trans (sum_congr rfl fun q _ => ?_) (key 0 1 2 (by omega) (by omega) (by omega) (by omega)); ring
    · exact absurd rfl hne
  rw [moment0] at h0
  calc _ = s/16*∑ q ∈ range nq, w q*(x q 0^0*x q 1^0*x q 2^0) + s*b/16*∑ q ∈ range nq, w q*x q f
        - s/16*∑ q ∈ range nq, w q*x q e^2 - s*b/16*∑ q ∈ range nq, w q*(x q e^2*x q f) := by
        simp only [mul_sum, ← sum_add_distrib, ← sum_sub_distrib]
        exact sum_congr rfl fun _ _ => by ring
    _ = _ := by rw [h0, hL, hQ, hQL]; ring

theorem quadX_sgn (n d : Nat) (v : Bool) (h : n / 2^d % 2 = v.toNat) : quadX n d = sgn v := by
  unfold quadX
  rw [h]
  cases v <;> simp [sgn]

/-- The integral of a basis function of the square. -/
theorem ref_moment2 (nq : Nat) (w : Nat → ℝ) (x : Nat → Nat → ℝ) (h : ExactRule 2 nq w x) (r k : Nat)
    (hr : r < 8) (hk : k < 2) :
    ∑ q ∈ range nq, w q*quadRef (x q 0) (x q 1) (r*2 + k) = thirdOf 2 r k := by
  have hR := rule2 nq w x h
  have key : ∀ c00 c10 c01 c11 c20 c02 : ℝ, (∀ X Y : ℝ, quadRef X Y (r*2 + k)
      = c00 + c10*X + c01*Y + c11*(X*Y) + c20*X^2 + c02*Y^2) → 4*c00 + 4/3*c20 + 4/3*c02 = thirdOf 2 r k →
      ∑ q ∈ range nq, w q*quadRef (x q 0) (x q 1) (r*2 + k) = thirdOf 2 r k := by
    intro c00 c10 c01 c11 c20 c02 h1 h2
    rw [← h2, ← hR c00 c10 c01 c11 c20 c02 0 0]
    exact sum_congr rfl fun q _ => by rw [h1]; ring
  interval_cases r <;> interval_cases k
  · exact key (-1/4) (1/4) (1/4) (-1/4) 0 0 (fun X Y => by simp only [quadRef]; ring) (by norm_num [thirdOf, quadX])
  · exact key (-1/8) 0 0 0 0 (1/8) (fun X Y => by simp only [quadRef]; ring) (by norm_num [thirdOf, quadX])
  · exact key (-1/8) 0 0 0 (1/8) 0 (fun X Y => by simp only [quadRef]; ring) (by norm_num [thirdOf, quadX])
  · exact key (-1/4) (1/4) (1/4) (-1/4) 0 0 (fun X Y => by simp only [quadRef]; ring) (by norm_num [thirdOf, quadX])
  · exact key (1/4) (1/4) (-1/4) (-1/4) 0 0 (fun X Y => by simp only [quadRef]; ring) (by norm_num [thirdOf, quadX])
  · exact key (-1/8) 0 0 0 0 (1/8) (fun X Y => by simp only [quadRef]; ring) (by norm_num [thirdOf, quadX])
  · exact key (1/8) 0 0 0 (-1/8) 0 (fun X Y => by simp only [quadRef]; ring) (by norm_num [thirdOf, quadX])
  · exact key (-1/4) (-1/4) (1/4) (1/4) 0 0 (fun X Y => by simp only [quadRef]; ring) (by norm_num [thirdOf, quadX])
  · exact key (-1/4) (1/4) (-1/4) (1/4) 0 0 (fun X Y => by simp only [quadRef]; ring) (by norm_num [thirdOf, quadX])
  · exact key (1/8) 0 0 0 0 (-1/8) (fun X Y => by simp only [quadRef]; ring) (by norm_num [thirdOf, quadX])
  · exact key (-1/8) 0 0 0 (1/8) 0 (fun X Y => by simp only [quadRef]; ring) (by norm_num [thirdOf, quadX])
  · exact key (1/4) (-1/4) (1/4) (-1/4) 0 0 (fun X Y => by simp only [quadRef]; ring) (by norm_num [thirdOf, quadX])
  · exact key (1/4) (1/4) (1/4) (1/4) 0 0 (fun X Y => by simp only [quadRef]; ring) (by norm_num [thirdOf, quadX])
  · exact key (1/8) 0 0 0 0 (-1/8) (fun X Y => by simp only [quadRef]; ring) (by norm_num [thirdOf, quadX])
  · exact key (1/8) 0 0 0 (-1/8) 0 (fun X Y => by simp only [quadRef]; ring) (by norm_num [thirdOf, quadX])
  · exact key (1/4) (1/4) (1/4) (1/4) 0 0 (fun X Y => by simp only [quadRef]; ring) (by norm_num [thirdOf, quadX])

/-- The integral of a basis function of the cube. -/
theorem ref_moment3 (nq : Nat) (w : Nat → ℝ) (x : Nat → Nat → ℝ) (h : ExactRule 3 nq w x) (r k : Nat)
    (hr : r < 24) (hk : k < 3) :
    ∑ q ∈ range nq, w q*hexRef (x q 0) (x q 1) (x q 2) (r*3 + k) = thirdOf 3 r k := by
  obtain ⟨v, d, rfl, hv⟩ := split3 r hr
  have hd : (number3 v*3 + d.1) / 3 = number3 v := by have := d.2; omega
  have hm : (number3 v*3 + d.1) % 3 = d := by have := d.2; omega
  have hx : ∀ e : Fin 3, quadX (number3 v) e = sgn (v e) := fun e =>
    quadX_sgn _ _ _ (by have := hv e; rwa [hd] at this)
  have hT : thirdOf 3 (number3 v*3 + d) k = sgn (v ⟨k, hk⟩)*(if (⟨k, hk⟩ : Fin 3) = d then 1 else 1/3) := by
    unfold thirdOf
    rw [hd, hm, hx ⟨k, hk⟩]
    simp only [Fin.ext_iff]
  rw [hT]
  have hc : ∀ q, hexRef (x q 0) (x q 1) (x q 2) ((number3 v*3 + d)*3 + k)
      = hexClosed (x q 0) (x q 1) (x q 2) (sgn (v 0)) (sgn (v 1)) (sgn (v 2)) d ⟨k, hk⟩ := by
    intro q
    rw [← hexRef_closed, Nat.mul_comm _ 3]
    rfl
  simp only [hc]
  have hS := rule3_side nq w x h
  have hC := rule3_corner nq w x h
  have hS0 : ∀ (s : ℝ) (e f : Nat) (he : e < 3) (hf : f < 3) (hne : e ≠ f),
      ∑ q ∈ range nq, w q*(s*(1 - x q e^2)/16) = s*(1/3) := by
    intro s e f he hf hne
    refine Eq.trans (sum_congr rfl fun q _ => ?_) (hS s 0 e f he hf hne)
    ring
  interval_cases k <;> fin_cases d
  · simpa [hexClosed] using hC (sgn (v 0)) (sgn (v 1)) (sgn (v 2)) (sgn (v 0))
  · simpa [hexClosed] using hS (sgn (v 0)) (sgn (v 2)) 0 2 (by decide) (by decide) (by decide)
  · simpa [hexClosed] using hS0 (sgn (v 0)) 0 1 (by decide) (by decide) (by decide)
  · simpa [hexClosed] using hS0 (sgn (v 1)) 1 0 (by decide) (by decide) (by decide)
  · simpa [hexClosed] using hC (sgn (v 0)) (sgn (v 1)) (sgn (v 2)) (sgn (v 1))
  · simpa [hexClosed] using hS (sgn (v 1)) (sgn (v 0)) 1 0 (by decide) (by decide) (by decide)
  · simpa [hexClosed] using hS (sgn (v 2)) (sgn (v 1)) 2 1 (by decide) (by decide) (by decide)
  · simpa [hexClosed] using hS0 (sgn (v 2)) 2 0 (by decide) (by decide) (by decide)
  · simpa [hexClosed] using hC (sgn (v 0)) (sgn (v 1)) (sgn (v 2)) (sgn (v 2))

theorem ref_moment (dim nv : Nat) (hd : dim = 2 ∧ nv = 4 ∨ dim = 3 ∧ nv = 8) (nq : Nat) (w : Nat → ℝ)
    (x : Nat → Nat → ℝ) (h : ExactRule dim nq w x) (r k : Nat) (hr : r < dim*nv) (hk : k < dim) :
    ∑ q ∈ range nq, w q*refBasis dim (x q) (r*dim + k) = thirdOf dim r k := by
  rcases hd with ⟨rfl, rfl⟩ | ⟨rfl, rfl⟩
  · exact ref_moment2 nq w x h r k hr hk
  · exact ref_moment3 nq w x h r k hr hk

/-- The signs of the corners of the cube. -/
theorem quadX_table : quadX 0 0 = -1 ∧ quadX 0 1 = -1 ∧ quadX 0 2 = -1 ∧ quadX 1 0 = 1 ∧ quadX 1 1 =
    -1 ∧ quadX 1 2 = -1 ∧ quadX 2 0 = -1 ∧ quadX 2 1 = 1 ∧ quadX 2 2 = -1 ∧ quadX 3 0 = 1 ∧ quadX 3 1 =
    1 ∧ quadX 3 2 = -1     ∧ quadX 4 0 = -1 ∧ quadX 4 1 = -1 ∧ quadX 4 2 = 1 ∧ quadX 5 0 = 1 ∧ quadX 5 1
    = -1 ∧ quadX 5 2 = 1 ∧ quadX 6 0 = -1 ∧ quadX 6 1 = 1 ∧ quadX 6 2 = 1 ∧ quadX 7 0 = 1 ∧ quadX 7 1 =
    1 ∧ quadX 7 2 = 1 := by
  refine ⟨?_, ?_, ?_, ?_, ?_, ?_, ?_, ?_, ?_, ?_, ?_, ?_, ?_, ?_, ?_, ?_, ?_, ?_, ?_, ?_, ?_, ?_, ?_, ?_⟩ <;> norm_num [quadX]

theorem sum24 (f : Nat → ℝ) : ∑ r ∈ range (3*8), f r
    = ∑ v ∈ range 8, (f (v*3) + f (v*3 + 1) + f (v*3 + 2)) := by
  simp only [sum_range_succ, sum_range_zero, Nat.reduceMul, Nat.reduceAdd]
  ring

/-- The sum over the corners. -/
theorem corner_sum (x y z : ℝ) (d k : Fin 3) : ∑ v ∈ range 8,
    quadX v d*hexClosed x y z (quadX v 0) (quadX v 1) (quadX v 2) d k = if d = k then 1 else 0 := by
  obtain ⟨t00, t01, t02, t10, t11, t12, t20, t21, t22, t30, t31, t32,
    t40, t41, t42, t50, t51, t52, t60, t61, t62, t70, t71, t72⟩ := quadX_table
  simp only [sum_range_succ, sum_range_zero]
  fin_cases d <;> fin_cases k <;>
    simp only [Fin.zero_eta, Fin.mk_one, Fin.reduceFinMk,
      t00, t01, t02, t10, t11, t12, t20, t21, t22, t30, t31, t32,
      t40, t41, t42, t50, t51, t52, t60, t61, t62, t70, t71, t72, hexClosed] <;>
    first | (rw [if_neg (by decide)]; ring1) | (rw [if_pos trivial]; ring1)

/-- The basis functions reproduce constant velocities. -/
theorem ref_constant (dim nv : Nat) (hd : dim = 2 ∧ nv = 4 ∨ dim = 3 ∧ nv = 8) (ξ û : Nat → ℝ) (k : Nat)
    (hk : k < dim) :
    ∑ r ∈ range (dim*nv), quadX (r / dim) (r % dim)*û (r % dim)*refBasis dim ξ (r*dim + k) = û k := by
  rcases hd with ⟨rfl, rfl⟩ | ⟨rfl, rfl⟩
  · simp only [refBasis, if_true]
    interval_cases k <;> norm_num [sum_range_succ, quadX, quadRef] <;> ring
  · simp only [refBasis, show (3 = 2) = False by simp, if_false]
    rw [sum24]
    have hr : ∀ v < 8, ∀ d : Fin 3, hexRef (ξ 0) (ξ 1) (ξ 2) ((v*3 + d)*3 + k)
        = hexClosed (ξ 0) (ξ 1) (ξ 2) (quadX v 0) (quadX v 1) (quadX v 2) d ⟨k, hk⟩ := by
      intro v hv d
      obtain ⟨c, d', h1, h2⟩ := split3 (v*3 + d) (by have := d.2; omega)
      have e1 : v = number3 c := by have := d.2; have := d'.2; omega
      have e2 : d = d' := Fin.ext (by omega)
      have e3 : (v*3 + d.1) / 3 = v := by have := d.2; omega
      rw [e3] at h2
      rw [quadX_sgn v 0 (c 0) (h2 0), quadX_sgn v 1 (c 1) (h2 1), quadX_sgn v 2 (c 2) (h2 2),
        ← hexRef_closed, Nat.mul_comm _ 3, e1]
      rfl
    have e0 : ∀ v, (v*3) / 3 = v ∧ (v*3) % 3 = 0 := fun v => by omega
    have e1 : ∀ v, (v*3 + 1) / 3 = v ∧ (v*3 + 1) % 3 = 1 := fun v => by omega
    have e2 : ∀ v, (v*3 + 2) / 3 = v ∧ (v*3 + 2) % 3 = 2 := fun v => by omega
    calc _ = ∑ v ∈ range 8, (û 0*(quadX v 0*hexClosed (ξ 0) (ξ 1) (ξ 2) (quadX v 0) (quadX v 1) (quadX v 2) 0 ⟨k, hk⟩)
          + û 1*(quadX v 1*hexClosed (ξ 0) (ξ 1) (ξ 2) (quadX v 0) (quadX v 1) (quadX v 2) 1 ⟨k, hk⟩)
          + û 2*(quadX v 2*hexClosed (ξ 0) (ξ 1) (ξ 2) (quadX v 0) (quadX v 1) (quadX v 2) 2 ⟨k, hk⟩)) := by
          refine sum_congr rfl fun v hv => ?_
          rw [(e0 v).1, (e0 v).2, (e1 v).1, (e1 v).2, (e2 v).1, (e2 v).2]
          have h0 := hr v (mem_range.1 hv) 0
          have h1 := hr v (mem_range.1 hv) 1
          have h2 := hr v (mem_range.1 hv) 2
          simp only [Fin.val_zero, Fin.val_one, Fin.val_two, add_zero] at h0 h1 h2
          rw [h0, h1, h2]
          ring
      _ = û k := by
          rw [sum_add_distrib, sum_add_distrib, ← mul_sum, ← mul_sum, ← mul_sum]
          have h0 := corner_sum (ξ 0) (ξ 1) (ξ 2) 0 ⟨k, hk⟩
          have h1 := corner_sum (ξ 0) (ξ 1) (ξ 2) 1 ⟨k, hk⟩
          have h2 := corner_sum (ξ 0) (ξ 1) (ξ 2) 2 ⟨k, hk⟩
          simp only [Fin.val_zero, Fin.val_one, Fin.val_two] at h0 h1 h2
          rw [h0, h1, h2]
          interval_cases k <;> simp

/-- The outflows of a constant velocity add up to zero. -/
theorem sum_constant (dim nv : Nat) (hd : dim = 2 ∧ nv = 4 ∨ dim = 3 ∧ nv = 8) (û : Nat → ℝ) :
    ∑ r ∈ range (dim*nv), quadX (r / dim) (r % dim)*û (r % dim) = 0 := by
  rcases hd with ⟨rfl, rfl⟩ | ⟨rfl, rfl⟩
  · norm_num [sum_range_succ, quadX]
    ring
  · norm_num [sum_range_succ, quadX]
    ring

theorem singlePoint_sgn (dir : Nat) (s : Bool) (y : Nat → ℝ) : singlePoint dir s.toNat y dir = sgn s := by
  simp only [singlePoint, if_true]
  cases s <;> norm_num [sgn]

/-- The integral of a linear function times the normal component of a basis function over a side of the
square. -/
theorem face_moment2 (nq : Nat) (w : Nat → ℝ) (y : Nat → Nat → ℝ) (h : ExactRule 1 nq w y) (r : Nat)
    (hr : r < 8) (dir : Nat) (hdir : dir < 2) (s : Bool) (A : ℝ) (G : Nat → ℝ) :
    ∑ q ∈ range nq, w q*((A + ∑ j ∈ range 2, G j*singlePoint dir s.toNat (y q) j)
        *(sgn s*refBasis 2 (singlePoint dir s.toNat (y q)) (r*2 + dir)))
      = if r % 2 = dir ∧ (r/2/2^dir)%2 = s.toNat then A + ∑ j ∈ range 2, G j*thirdOf 2 r j else 0 := by
  obtain ⟨v, d, rfl, hv⟩ := split2 r hr
  have hd : (number2 v*2 + d.1) / 2 = number2 v := by have := d.2; omega
  have hm : (number2 v*2 + d.1) % 2 = d := by have := d.2; omega
  have hx : ∀ e : Fin 2, quadX (number2 v) e = sgn (v e) := fun e =>
    quadX_sgn _ _ _ (by have := hv e; rwa [hd] at this)
  have hval : ∀ q, sgn s*refBasis 2 (singlePoint dir s.toNat (y q)) ((number2 v*2 + d)*2 + dir)
      = if (⟨dir, hdir⟩ : Fin 2) = d ∧ s = v d then
        ∏ k ∈ univ.erase d, (1 + sgn (v k)*singlePoint dir s.toNat (y q) k)/2 else 0 := by
    intro q
    rw [← quad_nodal v d ⟨dir, hdir⟩ s (fun e => singlePoint dir s.toNat (y q) e)]
    · rw [Nat.mul_comm (number2 v*2 + d) 2]
      rfl
    · exact singlePoint_sgn dir s (y q)
  simp only [hval]
  have hc : ((number2 v*2 + d) % 2 = dir ∧ ((number2 v*2 + d)/2/2^dir)%2 = s.toNat)
      ↔ ((⟨dir, hdir⟩ : Fin 2) = d ∧ s = v d) := by
    rw [hm, hv ⟨dir, hdir⟩]
    constructor
    · rintro ⟨rfl, h⟩
      refine ⟨rfl, ?_⟩
      revert h
      cases s <;> cases v ⟨d.1, hdir⟩ <;> simp
    · rintro ⟨rfl, h⟩
      exact ⟨rfl, by rw [h]⟩
  by_cases hcc : (⟨dir, hdir⟩ : Fin 2) = d ∧ s = v d
  · simp only [if_pos hcc, if_pos (hc.2 hcc)]
    obtain ⟨rfl, rfl⟩ := hcc
    simp only [thirdOf, hd, hm, sum_range_succ, sum_range_zero, zero_add]
    have hx0 := hx 0
    have hx1 := hx 1
    simp only [Fin.val_zero, Fin.val_one] at hx0 hx1
    rw [hx0, hx1]
    have hR := rule1 nq w y h
    interval_cases dir
    · simp only [show univ.erase (⟨0, hdir⟩ : Fin 2) = {1} by ext k; fin_cases k <;> simp, prod_singleton,
        singlePoint_sgn]
      have h1 : ∀ q, singlePoint 0 (v ⟨0, hdir⟩).toNat (y q) 1 = y q 0 := fun q => rfl
      have h1' : ∀ q, singlePoint 0 (v ⟨0, hdir⟩).toNat (y q) ((1 : Fin 2) : Nat) = y q 0 := fun q => rfl
      simp only [h1, h1']
      refine Eq.trans (sum_congr rfl fun q _ => ?_) (Eq.trans (hR ((A + G 0*sgn (v 0))/2)
        (((A + G 0*sgn (v 0))*sgn (v 1) + G 1)/2) (G 1*sgn (v 1)/2)) ?_)
      · simp only [Fin.zero_eta]
        ring
      · norm_num
        ring
    · simp only [show univ.erase (⟨1, hdir⟩ : Fin 2) = {0} by ext k; fin_cases k <;> simp, prod_singleton,
        singlePoint_sgn]
      have h1 : ∀ q, singlePoint 1 (v ⟨1, hdir⟩).toNat (y q) 0 = y q 0 := fun q => rfl
      have h1' : ∀ q, singlePoint 1 (v ⟨1, hdir⟩).toNat (y q) ((0 : Fin 2) : Nat) = y q 0 := fun q => rfl
      simp only [h1, h1']
      refine Eq.trans (sum_congr rfl fun q _ => ?_) (Eq.trans (hR ((A + G 1*sgn (v 1))/2)
        (((A + G 1*sgn (v 1))*sgn (v 0) + G 0)/2) (G 0*sgn (v 0)/2)) ?_)
      · simp only [Fin.mk_one]
        ring
      · norm_num
        ring
  · simp only [if_neg hcc, if_neg (fun h => hcc (hc.1 h)), mul_zero, sum_const_zero]

/-- `(B + G y + H z) (1 + a y)/2 (1 + b z)/2` over the square. -/
theorem rule2_corner (nq : Nat) (w : Nat → ℝ) (y : Nat → Nat → ℝ) (h : ExactRule 2 nq w y) (B G H a b : ℝ) :
    ∑ q ∈ range nq, w q*((B + G*y q 0 + H*y q 1)*((1 + a*y q 0)/2*((1 + b*y q 1)/2)))
      = B + G*a*(1/3) + H*b*(1/3) := by
  refine Eq.trans (sum_congr rfl fun q _ => ?_) (Eq.trans (rule2 nq w y h (B/4) ((B*a + G)/4) ((B*b + H)/4)
    ((B*a*b + G*b + H*a)/4) (G*a/4) (H*b/4) (G*a*b/4) (H*a*b/4)) ?_)
  · ring
  · ring

/-- The same for the cube. -/
theorem face_moment3 (nq : Nat) (w : Nat → ℝ) (y : Nat → Nat → ℝ) (h : ExactRule 2 nq w y) (r : Nat)
    (hr : r < 24) (dir : Nat) (hdir : dir < 3) (s : Bool) (A : ℝ) (G : Nat → ℝ) :
    ∑ q ∈ range nq, w q*((A + ∑ j ∈ range 3, G j*singlePoint dir s.toNat (y q) j)
        *(sgn s*refBasis 3 (singlePoint dir s.toNat (y q)) (r*3 + dir)))
      = if r % 3 = dir ∧ (r/3/2^dir)%2 = s.toNat then A + ∑ j ∈ range 3, G j*thirdOf 3 r j else 0 := by
  obtain ⟨v, d, rfl, hv⟩ := split3 r hr
  have hd : (number3 v*3 + d.1) / 3 = number3 v := by have := d.2; omega
  have hm : (number3 v*3 + d.1) % 3 = d := by have := d.2; omega
  have hx : ∀ e : Fin 3, quadX (number3 v) e = sgn (v e) := fun e =>
    quadX_sgn _ _ _ (by have := hv e; rwa [hd] at this)
  have hval : ∀ q, sgn s*refBasis 3 (singlePoint dir s.toNat (y q)) ((number3 v*3 + d)*3 + dir)
      = if (⟨dir, hdir⟩ : Fin 3) = d ∧ s = v d then
        ∏ k ∈ univ.erase d, (1 + sgn (v k)*singlePoint dir s.toNat (y q) k)/2 else 0 := by
    intro q
    rw [← hex_nodal v d ⟨dir, hdir⟩ s (fun e => singlePoint dir s.toNat (y q) e)]
    · rw [Nat.mul_comm (number3 v*3 + d) 3]
      rfl
    · exact singlePoint_sgn dir s (y q)
  simp only [hval]
  have hc : ((number3 v*3 + d) % 3 = dir ∧ ((number3 v*3 + d)/3/2^dir)%2 = s.toNat)
      ↔ ((⟨dir, hdir⟩ : Fin 3) = d ∧ s = v d) := by
    rw [hm, hv ⟨dir, hdir⟩]
    constructor
    · rintro ⟨rfl, h⟩
      refine ⟨rfl, ?_⟩
      revert h
      cases s <;> cases v ⟨d.1, hdir⟩ <;> simp
    · rintro ⟨rfl, h⟩
      exact ⟨rfl, by rw [h]⟩
  by_cases hcc : (⟨dir, hdir⟩ : Fin 3) = d ∧ s = v d
  · simp only [if_pos hcc, if_pos (hc.2 hcc)]
    obtain ⟨rfl, rfl⟩ := hcc
    simp only [thirdOf, hd, hm, sum_range_succ, sum_range_zero, zero_add]
    have hx0 := hx 0
    have hx1 := hx 1
    have hx2 := hx 2
    simp only [Fin.val_zero, Fin.val_one, Fin.val_two] at hx0 hx1 hx2
    rw [hx0, hx1, hx2]
    have hR := rule2_corner nq w y h
    interval_cases dir
    · simp only [show univ.erase (⟨0, hdir⟩ : Fin 3) = {1, 2} by ext k; fin_cases k <;> simp,
        prod_pair (show (1 : Fin 3) ≠ 2 by decide), singlePoint_sgn]
      have h1 : ∀ q, singlePoint 0 (v ⟨0, hdir⟩).toNat (y q) 1 = y q 0 := fun q => rfl
      have h2 : ∀ q, singlePoint 0 (v ⟨0, hdir⟩).toNat (y q) 2 = y q 1 := fun q => rfl
      have h1' : ∀ q, singlePoint 0 (v ⟨0, hdir⟩).toNat (y q) ((1 : Fin 3) : Nat) = y q 0 := fun q => rfl
      have h2' : ∀ q, singlePoint 0 (v ⟨0, hdir⟩).toNat (y q) ((2 : Fin 3) : Nat) = y q 1 := fun q => rfl
      simp only [h1, h1', h2, h2']
      refine Eq.trans (sum_congr rfl fun q _ => ?_) (Eq.trans (hR (A + G 0*sgn (v 0)) (G 1) (G 2)
        (sgn (v 1)) (sgn (v 2))) ?_)
      · simp only [Fin.zero_eta]
        ring
      · norm_num
        ring
    · simp only [show univ.erase (⟨1, hdir⟩ : Fin 3) = {0, 2} by ext k; fin_cases k <;> simp,
        prod_pair (show (0 : Fin 3) ≠ 2 by decide), singlePoint_sgn]
      have h1 : ∀ q, singlePoint 1 (v ⟨1, hdir⟩).toNat (y q) 0 = y q 0 := fun q => rfl
      have h2 : ∀ q, singlePoint 1 (v ⟨1, hdir⟩).toNat (y q) 2 = y q 1 := fun q => rfl
      have h1' : ∀ q, singlePoint 1 (v ⟨1, hdir⟩).toNat (y q) ((0 : Fin 3) : Nat) = y q 0 := fun q => rfl
      have h2' : ∀ q, singlePoint 1 (v ⟨1, hdir⟩).toNat (y q) ((2 : Fin 3) : Nat) = y q 1 := fun q => rfl
      simp only [h1, h1', h2, h2']
      refine Eq.trans (sum_congr rfl fun q _ => ?_) (Eq.trans (hR (A + G 1*sgn (v 1)) (G 0) (G 2)
        (sgn (v 0)) (sgn (v 2))) ?_)
      · simp only [Fin.mk_one]
        ring
      · norm_num
        ring
    · simp only [show univ.erase (⟨2, hdir⟩ : Fin 3) = {0, 1} by ext k; fin_cases k <;> simp,
        prod_pair (show (0 : Fin 3) ≠ 1 by decide), singlePoint_sgn]
      have h1 : ∀ q, singlePoint 2 (v ⟨2, hdir⟩).toNat (y q) 0 = y q 0 := fun q => rfl
      have h2 : ∀ q, singlePoint 2 (v ⟨2, hdir⟩).toNat (y q) 1 = y q 1 := fun q => rfl
      have h1' : ∀ q, singlePoint 2 (v ⟨2, hdir⟩).toNat (y q) ((0 : Fin 3) : Nat) = y q 0 := fun q => rfl
      have h2' : ∀ q, singlePoint 2 (v ⟨2, hdir⟩).toNat (y q) ((1 : Fin 3) : Nat) = y q 1 := fun q => rfl
      simp only [h1, h1', h2, h2']
      refine Eq.trans (sum_congr rfl fun q _ => ?_) (Eq.trans (hR (A + G 2*sgn (v 2)) (G 0) (G 1)
        (sgn (v 0)) (sgn (v 1))) ?_)
      · simp only [Fin.reduceFinMk]
        ring
      · norm_num
        ring
  · simp only [if_neg hcc, if_neg (fun h => hcc (hc.1 h)), mul_zero, sum_const_zero]

/-! ### The corners as quadrature points -/

theorem lumped_moment2 (r k : Nat) (hr : r < 8) (hk : k < 2) :
    ∑ q ∈ range 4, quadRef (quadX q 0) (quadX q 1) (r*2 + k) = faceCentreOf 2 r k := by
  interval_cases r <;> interval_cases k <;> norm_num [sum_range_succ, quadRef, quadX, faceCentreOf]

theorem lumped_closed (a b c : ℝ) (d k : Fin 3) : ∑ q ∈ range 8,
    hexClosed (quadX q 0) (quadX q 1) (quadX q 2) a b c d k
      = if k = d then (if k = 0 then a else if k = 1 then b else c) else 0 := by
  obtain ⟨t00, t01, t02, t10, t11, t12, t20, t21, t22, t30, t31, t32,
    t40, t41, t42, t50, t51, t52, t60, t61, t62, t70, t71, t72⟩ := quadX_table
  simp only [sum_range_succ, sum_range_zero, t00, t01, t02, t10, t11, t12, t20, t21, t22, t30, t31, t32,
    t40, t41, t42, t50, t51, t52, t60, t61, t62, t70, t71, t72]
  fin_cases d <;> fin_cases k <;> simp [hexClosed] <;> ring

theorem lumped_moment3 (r k : Nat) (hr : r < 24) (hk : k < 3) :
    ∑ q ∈ range 8, hexRef (quadX q 0) (quadX q 1) (quadX q 2) (r*3 + k) = faceCentreOf 3 r k := by
  obtain ⟨v, d, rfl, hv⟩ := split3 r hr
  have hd : (number3 v*3 + d.1) / 3 = number3 v := by have := d.2; omega
  have hm : (number3 v*3 + d.1) % 3 = d := by have := d.2; omega
  have hx : ∀ e : Fin 3, quadX (number3 v) e = sgn (v e) := fun e =>
    quadX_sgn _ _ _ (by have := hv e; rwa [hd] at this)
  have hc : ∀ q, hexRef (quadX q 0) (quadX q 1) (quadX q 2) ((number3 v*3 + d)*3 + k)
      = hexClosed (quadX q 0) (quadX q 1) (quadX q 2) (sgn (v 0)) (sgn (v 1)) (sgn (v 2)) d ⟨k, hk⟩ := by
    intro q
    rw [← hexRef_closed, Nat.mul_comm _ 3]
    rfl
  simp only [hc]
  rw [lumped_closed]
  have hT : faceCentreOf 3 (number3 v*3 + d) k = if (⟨k, hk⟩ : Fin 3) = d then sgn (v ⟨k, hk⟩) else 0 := by
    unfold faceCentreOf
    rw [hd, hm, hx ⟨k, hk⟩]
    simp only [Fin.ext_iff]
  rw [hT]
  interval_cases k <;> simp

theorem lumped_moment (b : Bdm) (hb : Cells b) (c : BCell) (h : LumpedRule b c) (r k : Nat)
    (hr : r < b.dim*b.nv) (hk : k < b.dim) :
    ∑ q ∈ range c.nq, (c.pt q).w*refBasis b.dim (c.pt q).x (r*b.dim + k) = faceCentreOf b.dim r k := by
  have h1 : ∀ q ∈ range c.nq, (c.pt q).w*refBasis b.dim (c.pt q).x (r*b.dim + k)
      = refBasis b.dim (quadX q) (r*b.dim + k) := by
    intro q hq
    obtain ⟨hw, hx⟩ := h.2 q (mem_range.1 hq)
    rw [hw, hx, one_mul]
  rw [sum_congr rfl h1, h.1]
  rcases hb with ⟨hd, hv⟩ | ⟨hd, hv⟩
  · rw [hd, hv] at hr
    rw [hd] at hk ⊢
    rw [hv]
    exact lumped_moment2 r k hr hk
  · rw [hd, hv] at hr
    rw [hd] at hk ⊢
    rw [hv]
    exact lumped_moment3 r k hr hk

/-- The corners are a grid. -/
theorem lumped_grid (b : Bdm) (hb : Cells b) (c : BCell) (h : LumpedRule b c) : HasRule b c := by
  right
  intro t ht
  have hs : ∀ d < b.dim, t d = -1 ∨ t d = 1 := fun d hd => by simpa using ht d hd
  have key : ∀ q < b.nv, (∀ d < b.dim, quadX q d = t d) → ∃ q < c.nq, ∀ d < b.dim, (c.pt q).x d = t d := by
    intro q hq h1
    refine ⟨q, by rw [h.1]; exact hq, fun d hd => ?_⟩
    rw [(h.2 q (by rw [h.1]; exact hq)).2]
    exact h1 d hd
  rcases hb with ⟨hd, hv⟩ | ⟨hd, hv⟩
  · rw [hd, hv] at key
    rw [hd] at hs ⊢
    rcases hs 0 (by decide) with h0 | h0 <;> rcases hs 1 (by decide) with h1 | h1
    · exact key 0 (by decide) fun d hd => by interval_cases d <;> norm_num [quadX, h0, h1]
    · exact key 2 (by decide) fun d hd => by interval_cases d <;> norm_num [quadX, h0, h1]
    · exact key 1 (by decide) fun d hd => by interval_cases d <;> norm_num [quadX, h0, h1]
    · exact key 3 (by decide) fun d hd => by interval_cases d <;> norm_num [quadX, h0, h1]
  · rw [hd, hv] at key
    rw [hd] at hs ⊢
    rcases hs 0 (by decide) with h0 | h0 <;> rcases hs 1 (by decide) with h1 | h1 <;>
      rcases hs 2 (by decide) with h2 | h2
    · exact key 0 (by decide) fun d hd => by interval_cases d <;> norm_num [quadX, h0, h1, h2]
    · exact key 4 (by decide) fun d hd => by interval_cases d <;> norm_num [quadX, h0, h1, h2]
    · exact key 2 (by decide) fun d hd => by interval_cases d <;> norm_num [quadX, h0, h1, h2]
    · exact key 6 (by decide) fun d hd => by interval_cases d <;> norm_num [quadX, h0, h1, h2]
    · exact key 1 (by decide) fun d hd => by interval_cases d <;> norm_num [quadX, h0, h1, h2]
    · exact key 5 (by decide) fun d hd => by interval_cases d <;> norm_num [quadX, h0, h1, h2]
    · exact key 3 (by decide) fun d hd => by interval_cases d <;> norm_num [quadX, h0, h1, h2]
    · exact key 7 (by decide) fun d hd => by interval_cases d <;> norm_num [quadX, h0, h1, h2]

end

end TDy.Fe.Props
