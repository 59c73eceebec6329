import Mathlib.LinearAlgebra.Matrix.ToLinearEquiv
import Mathlib.Algebra.Order.Star.Real
import Mathlib.Tactic.Linarith
import Mathlib.Tactic.LinearCombination
import Verif.Spec.BdmUnique
import Verif.Props.BdmRest

/-!
# C185: the system of the BDM method has exactly one solution
-/

namespace TDy.Fe.Props

open TDy.Fe TDy.Fe.Spec TDy.Fe.Proofs Finset Matrix

noncomputable section

/-! ### A velocity that vanishes at the quadrature points vanishes -/

theorem quadratic_zero (g : ℝ → ℝ)
    (hq : ∀ t, g t = g 0 + (g 1 - g (-1))/2*t + ((g 1 + g (-1))/2 - g 0)*t^2)
    (nodes : Finset ℝ) (hc : nodes.card = 3) (h : ∀ t ∈ nodes, g t = 0) (t : ℝ) : g t = 0 := by
  obtain ⟨p, q, r, hpq, hpr, hqr, rfl⟩ := Finset.card_eq_three.1 hc
  have hp := h p (by simp)
  have hq' := h q (by simp)
  have hr := h r (by simp)
  rw [hq] at hp hq' hr
  rw [hq]
  generalize g 0 = A at *
  generalize (g 1 - g (-1))/2 = B at *
  generalize (g 1 + g (-1))/2 - A = C at *
  have h1 : B + C*(p + q) = 0 := by
    have : (p - q)*(B + C*(p + q)) = 0 := by linear_combination hp - hq'
    exact (mul_eq_zero.1 this).resolve_left (sub_ne_zero.2 hpq)
  have h2 : B + C*(p + r) = 0 := by
    have : (p - r)*(B + C*(p + r)) = 0 := by linear_combination hp - hr
    exact (mul_eq_zero.1 this).resolve_left (sub_ne_zero.2 hpr)
  have h3 : C = 0 := by
    have : (q - r)*C = 0 := by linear_combination h1 - h2
    exact (mul_eq_zero.1 this).resolve_left (sub_ne_zero.2 hqr)
  have h4 : B = 0 := by rw [h3] at h1; linarith
  have h5 : A = 0 := by rw [h3, h4] at hp; linarith
  rw [h3, h4, h5]
  ring

theorem sum_quadratic (n : Nat) (a : Nat → ℝ) (f : Nat → ℝ → ℝ)
    (hq : ∀ r < n, ∀ t, f r t = f r 0 + (f r 1 - f r (-1))/2*t + ((f r 1 + f r (-1))/2 - f r 0)*t^2) (t : ℝ) :
    ∑ r ∈ range n, a r*f r t = ∑ r ∈ range n, a r*f r 0
      + (∑ r ∈ range n, a r*f r 1 - ∑ r ∈ range n, a r*f r (-1))/2*t
      + ((∑ r ∈ range n, a r*f r 1 + ∑ r ∈ range n, a r*f r (-1))/2 - ∑ r ∈ range n, a r*f r 0)*t^2 := by
  have : ∀ r ∈ range n, a r*f r t = a r*f r 0 + (a r*f r 1 - a r*f r (-1))/2*t
      + ((a r*f r 1 + a r*f r (-1))/2 - a r*f r 0)*t^2 := by
    intro r hr
    rw [hq r (mem_range.1 hr) t]
    ring
  rw [sum_congr rfl this]
  simp only [sum_add_distrib, ← sum_mul, sum_sub_distrib, ← sum_div]

theorem quad_in_x (y : ℝ) (m : Nat) (hm : m < 16) (t : ℝ) : quadRef t y m = quadRef 0 y m
    + (quadRef 1 y m - quadRef (-1) y m)/2*t + ((quadRef 1 y m + quadRef (-1) y m)/2 - quadRef 0 y m)*t^2 := by
  interval_cases m <;> simp only [quadRef] <;> ring

theorem quad_in_y (x : ℝ) (m : Nat) (hm : m < 16) (t : ℝ) : quadRef x t m = quadRef x 0 m
    + (quadRef x 1 m - quadRef x (-1) m)/2*t + ((quadRef x 1 m + quadRef x (-1) m)/2 - quadRef x 0 m)*t^2 := by
  interval_cases m <;> simp only [quadRef] <;> ring

theorem hex_quadratic (m : Nat) (hm : m < 72) : ∃ (a b c : ℝ) (d e : Fin 3),
    ∀ x y z, hexRef x y z m = hexClosed x y z a b c d e := by
  obtain ⟨v, d, hr, _⟩ := split3 (m/3) (by omega)
  refine ⟨sgn (v 0), sgn (v 1), sgn (v 2), d, ⟨m % 3, Nat.mod_lt _ (by decide)⟩, fun x y z => ?_⟩
  rw [← hexRef_closed]
  congr 1
  have : m = 3*(m/3) + m % 3 := (Nat.div_add_mod m 3).symm
  rw [hr] at this
  exact this

theorem hex_in_x (y z : ℝ) (m : Nat) (hm : m < 72) (t : ℝ) : hexRef t y z m = hexRef 0 y z m
    + (hexRef 1 y z m - hexRef (-1) y z m)/2*t
    + ((hexRef 1 y z m + hexRef (-1) y z m)/2 - hexRef 0 y z m)*t^2 := by
  obtain ⟨a, b, c, d, e, h⟩ := hex_quadratic m hm
  simp only [h]
  fin_cases d <;> fin_cases e <;> simp only [hexClosed] <;> ring

theorem hex_in_y (x z : ℝ) (m : Nat) (hm : m < 72) (t : ℝ) : hexRef x t z m = hexRef x 0 z m
    + (hexRef x 1 z m - hexRef x (-1) z m)/2*t
    + ((hexRef x 1 z m + hexRef x (-1) z m)/2 - hexRef x 0 z m)*t^2 := by
  obtain ⟨a, b, c, d, e, h⟩ := hex_quadratic m hm
  simp only [h]
  fin_cases d <;> fin_cases e <;> simp only [hexClosed] <;> ring

theorem hex_in_z (x y : ℝ) (m : Nat) (hm : m < 72) (t : ℝ) : hexRef x y t m = hexRef x y 0 m
    + (hexRef x y 1 m - hexRef x y (-1) m)/2*t
    + ((hexRef x y 1 m + hexRef x y (-1) m)/2 - hexRef x y 0 m)*t^2 := by
  obtain ⟨a, b, c, d, e, h⟩ := hex_quadratic m hm
  simp only [h]
  fin_cases d <;> fin_cases e <;> simp only [hexClosed] <;> ring

/-- The velocity of the coefficients `a` in the reference cell. -/
def refVelocity (dim nv : Nat) (a : Nat → ℝ) (x : Nat → ℝ) (k : Nat) : ℝ :=
  ∑ r ∈ range (dim*nv), a r*refBasis dim x (r*dim + k)

/-- The point with coordinates `x`, `y`, `z`. -/
def point (x y z : ℝ) : Nat → ℝ := fun d => if d = 0 then x else if d = 1 then y else z

theorem corner2 (a : Nat → ℝ) (h : ∀ x y : ℝ, (x = -1 ∨ x = 1) → (y = -1 ∨ y = 1) → ∀ k < 2,
    ∑ r ∈ range 8, a r*quadRef x y (r*2 + k) = 0) : ∀ r < 8, a r = 0 := by
  intro r hr
  have h1 := h (if (r/2) % 2 = 0 then -1 else 1) (if (r/2/2) % 2 = 0 then -1 else 1)
    (by split <;> simp) (by split <;> simp) (r % 2) (Nat.mod_lt _ (by decide))
  interval_cases r <;> norm_num [sum_range_succ, quadRef] at h1 <;> linarith

theorem sgn_inj (p q : Bool) (h : 1 + sgn p*sgn q ≠ 0) : p = q := by
  cases p <;> cases q <;> simp [sgn] at h ⊢

theorem corner3 (a : Nat → ℝ) (h : ∀ x y z : ℝ, (x = -1 ∨ x = 1) → (y = -1 ∨ y = 1) → (z = -1 ∨ z = 1) →
    ∀ k < 3, ∑ r ∈ range 24, a r*hexRef x y z (r*3 + k) = 0) : ∀ r < 24, a r = 0 := by
  intro r hr
  obtain ⟨v, d, hv, _⟩ := split3 r hr
  have hs : ∀ p : Bool, sgn p = -1 ∨ sgn p = 1 := fun p => by cases p <;> simp [sgn]
  have h1 := h (sgn (v 0)) (sgn (v 1)) (sgn (v 2)) (hs _) (hs _) (hs _) d d.2
  have hval : ∀ (v' : Corner 3) (d' : Fin 3), hexRef (sgn (v 0)) (sgn (v 1)) (sgn (v 2)) ((number3 v'*3 + d')*3 + d)
      = sgn (v d)*(if d = d' ∧ v d = v' d' then
        ∏ k ∈ Finset.univ.erase d', (1 + sgn (v' k)*sgn (v k))/2 else 0) := by
    intro v' d'
    have h2 := hex_nodal v' d' d (v d) v.point rfl
    have h3 : hexField v' d' v.point d
        = hexRef (sgn (v 0)) (sgn (v 1)) (sgn (v 2)) ((number3 v'*3 + d')*3 + d) := by
      rw [Nat.mul_comm _ 3]; rfl
    rw [outward, h3] at h2
    rw [show (∏ k ∈ Finset.univ.erase d', (1 + sgn (v' k)*sgn (v k))/2)
      = ∏ k ∈ Finset.univ.erase d', (1 + sgn (v' k)*v.point k)/2 from rfl, ← h2, ← mul_assoc, sgn_sq, one_mul]
  rw [sum_eq_single r] at h1
  · rw [hv, hval v d, if_pos ⟨rfl, rfl⟩] at h1
    have h4 : ∏ k ∈ Finset.univ.erase d, (1 + sgn (v k)*sgn (v k))/2 = 1 := by
      refine prod_eq_one fun k _ => ?_
      rw [sgn_sq]; norm_num
    rw [h4, mul_one] at h1
    rw [hv]
    refine (mul_eq_zero.1 h1).resolve_right ?_
    rcases hs (v d) with h5 | h5 <;> rw [h5] <;> norm_num
  · intro r' hr' hne
    obtain ⟨v', d', hv', _⟩ := split3 r' (mem_range.1 hr')
    rw [hv', hval v' d']
    split
    · rename_i hd
      have : ∃ k ∈ Finset.univ.erase d', (1 + sgn (v' k)*sgn (v k))/2 = 0 := by
        by_contra hno
        push Not at hno
        apply hne
        have hall : v' = v := by
          funext k
          by_cases hk : k = d'
          · rw [hk, ← hd.2, hd.1]
          · exact sgn_inj _ _ fun h0 => hno k (mem_erase.2 ⟨hk, mem_univ _⟩) (by rw [h0, zero_div])
        rw [hv, hv', hall, hd.1]
      rw [prod_eq_zero_iff.2 this, mul_zero, mul_zero]
    · rw [mul_zero, mul_zero]
  · intro hn
    exact absurd (mem_range.2 hr) hn

/-- Coefficients of a velocity that vanishes at the points of one of the rules are zero. -/
theorem ref_zero (b : Bdm) (hb : Cells b) (c : BCell) (hrule : HasRule b c) (a : Nat → ℝ)
    (h : ∀ q < c.nq, ∀ k < b.dim, refVelocity b.dim b.nv a (c.pt q).x k = 0) :
    ∀ r < b.dim*b.nv, a r = 0 := by
  rcases hb with ⟨hd, hv⟩ | ⟨hd, hv⟩
  · unfold HasRule HasGrid at hrule
    rw [hd] at hrule h ⊢
    rw [hv] at h ⊢
    simp only [refVelocity, refBasis, if_true] at h
    have hgrid : ∀ nodes : Finset ℝ, (∀ t : Nat → ℝ, (∀ d < 2, t d ∈ nodes) →
        ∃ q < c.nq, ∀ d < 2, (c.pt q).x d = t d) → ∀ x ∈ nodes, ∀ y ∈ nodes, ∀ k < 2,
        ∑ r ∈ range 8, a r*quadRef x y (r*2 + k) = 0 := by
      intro nodes hg x hx y hy k hk
      obtain ⟨q, hq, hx'⟩ := hg (point x y 0) (by
        intro d hd
        interval_cases d
        · exact hx
        · exact hy)
      have h0 : (c.pt q).x 0 = x := hx' 0 (by decide)
      have h1 : (c.pt q).x 1 = y := hx' 1 (by decide)
      have := h q hq k hk
      rwa [h0, h1] at this
    refine corner2 a ?_
    rcases hrule with ⟨nodes, hc, hg⟩ | hg
    · intro x y _ _ k hk
      have hx : ∀ y ∈ nodes, ∀ x, ∑ r ∈ range 8, a r*quadRef x y (r*2 + k) = 0 := fun y hy x =>
        quadratic_zero (fun t => ∑ r ∈ range 8, a r*quadRef t y (r*2 + k))
          (sum_quadratic 8 a (fun r t => quadRef t y (r*2 + k)) fun r hr t =>
            quad_in_x y (r*2 + k) (by omega) t) nodes hc (fun t ht => hgrid nodes hg t ht y hy k hk) x
      exact quadratic_zero (fun t => ∑ r ∈ range 8, a r*quadRef x t (r*2 + k))
          (sum_quadratic 8 a (fun r t => quadRef x t (r*2 + k)) fun r hr t =>
            quad_in_y x (r*2 + k) (by omega) t) nodes hc (fun t ht => hx t ht x) y
    · intro x y hx hy k hk
      exact hgrid {-1, 1} hg x (by simpa using hx) y (by simpa using hy) k hk
  · unfold HasRule HasGrid at hrule
    rw [hd] at hrule h ⊢
    rw [hv] at h ⊢
    have h32 : ¬ (3 = 2) := by decide
    simp only [refVelocity, refBasis, if_neg h32] at h
    have hgrid : ∀ nodes : Finset ℝ, (∀ t : Nat → ℝ, (∀ d < 3, t d ∈ nodes) →
        ∃ q < c.nq, ∀ d < 3, (c.pt q).x d = t d) → ∀ x ∈ nodes, ∀ y ∈ nodes, ∀ z ∈ nodes, ∀ k < 3,
        ∑ r ∈ range 24, a r*hexRef x y z (r*3 + k) = 0 := by
      intro nodes hg x hx y hy z hz k hk
      obtain ⟨q, hq, hx'⟩ := hg (point x y z) (by
        intro d hd
        interval_cases d
        · exact hx
        · exact hy
        · exact hz)
      have h0 : (c.pt q).x 0 = x := hx' 0 (by decide)
      have h1 : (c.pt q).x 1 = y := hx' 1 (by decide)
      have h2 : (c.pt q).x 2 = z := hx' 2 (by decide)
      have := h q hq k hk
      rwa [h0, h1, h2] at this
    refine corner3 a ?_
    rcases hrule with ⟨nodes, hc, hg⟩ | hg
    · intro x y z _ _ _ k hk
      have hx : ∀ y ∈ nodes, ∀ z ∈ nodes, ∀ x, ∑ r ∈ range 24, a r*hexRef x y z (r*3 + k) = 0 :=
        fun y hy z hz x =>
        quadratic_zero (fun t => ∑ r ∈ range 24, a r*hexRef t y z (r*3 + k))
          (sum_quadratic 24 a (fun r t => hexRef t y z (r*3 + k)) fun r hr t =>
            hex_in_x y z (r*3 + k) (by omega) t) nodes hc (fun t ht => hgrid nodes hg t ht y hy z hz k hk) x
      have hy : ∀ z ∈ nodes, ∀ x y, ∑ r ∈ range 24, a r*hexRef x y z (r*3 + k) = 0 := fun z hz x y =>
        quadratic_zero (fun t => ∑ r ∈ range 24, a r*hexRef x t z (r*3 + k))
          (sum_quadratic 24 a (fun r t => hexRef x t z (r*3 + k)) fun r hr t =>
            hex_in_y x z (r*3 + k) (by omega) t) nodes hc (fun t ht => hx t ht z hz x) y
      exact quadratic_zero (fun t => ∑ r ∈ range 24, a r*hexRef x y t (r*3 + k))
          (sum_quadratic 24 a (fun r t => hexRef x y t (r*3 + k)) fun r hr t =>
            hex_in_z x y (r*3 + k) (by omega) t) nodes hc (fun t ht => hy t ht x y) z
    · intro x y z hx hy hz k hk
      exact hgrid {-1, 1} hg x (by simpa using hx) y (by simpa using hy) z (by simpa using hz) k hk

/-- The velocity at a point is the image of the velocity in the reference cell. -/
theorem velocity_ref (b : Bdm) (hb : Cells b) (c : BCell) (p : QPoint) (x : Nat → ℝ) :
    velocity b c (hdivBasis b.dim p.x p.DF p.J) x = p.J⁻¹ • (toMatrix b.dim p.DF *ᵥ fun m =>
      refVelocity b.dim b.nv (fun r => (c.orient r : ℝ)*x (c.ltog r)) p.x m) := by
  funext k
  have hd : b.dim = 2 ∨ b.dim = 3 := by
    rcases hb with h | h
    · exact Or.inl h.1
    · exact Or.inr h.1
  simp only [velocity, Pi.smul_apply, smul_eq_mul, mulVec, dotProduct, toMatrix_apply, refVelocity]
  rw [Fin.sum_univ_eq_sum_range (fun m => p.DF (k*b.dim + m)*∑ r ∈ range (b.dim*b.nv),
    (c.orient r : ℝ)*x (c.ltog r)*refBasis b.dim p.x (r*b.dim + m)) b.dim]
  simp only [mul_sum]
  rw [sum_comm]
  refine sum_congr rfl fun r _ => ?_
  rw [basis_eq b.dim hd p.x p.DF p.J r k k.2, div_eq_inv_mul, mul_sum, mul_sum]
  exact sum_congr rfl fun m _ => by ring

theorem energy_terms (b : Bdm) (c : BCell) (hr : RegularMap b c) (K : Matrix (Fin b.dim) (Fin b.dim) ℝ)
    (hK : K.PosDef) (x : Nat → ℝ) : 0 ≤ energy b c K x x ∧ (energy b c K x x = 0 → ∀ q < c.nq,
      velocity b c (hdivBasis b.dim (c.pt q).x (c.pt q).DF (c.pt q).J) x = 0) := by
  have hpos : ∀ u : Fin b.dim → ℝ, u ≠ 0 → 0 < (K⁻¹ *ᵥ u) ⬝ᵥ u := by
    intro u hu
    have := hK.inv.dotProduct_mulVec_pos hu
    rw [dotProduct_comm]
    simpa using this
  have hnn : ∀ u : Fin b.dim → ℝ, 0 ≤ (K⁻¹ *ᵥ u) ⬝ᵥ u := by
    intro u
    by_cases hu : u = 0
    · rw [hu]; simp
    · exact (hpos u hu).le
  have hq : ∀ q ∈ range c.nq, 0 ≤ ((K⁻¹ *ᵥ velocity b c (hdivBasis b.dim (c.pt q).x (c.pt q).DF (c.pt q).J) x)
      ⬝ᵥ velocity b c (hdivBasis b.dim (c.pt q).x (c.pt q).DF (c.pt q).J) x)*((c.pt q).w*(c.pt q).J) := by
    intro q hq
    obtain ⟨hw, hJ, _⟩ := hr q (mem_range.1 hq)
    exact mul_nonneg (hnn _) (mul_pos hw hJ).le
  refine ⟨sum_nonneg hq, fun h0 q hlt => ?_⟩
  have h1 := (sum_eq_zero_iff_of_nonneg hq).1 h0 q (mem_range.2 hlt)
  obtain ⟨hw, hJ, _⟩ := hr q hlt
  have h2 := (mul_eq_zero.1 h1).resolve_right (mul_pos hw hJ).ne'
  by_contra hne
  exact absurd h2 (hpos _ hne).ne'

/-- A velocity without energy has no coefficients. -/
theorem energy_zero (b : Bdm) (hb : Cells b) (c : BCell) (hrule : HasRule b c) (hr : RegularMap b c)
    (K : Matrix (Fin b.dim) (Fin b.dim) ℝ) (hK : K.PosDef) (x : Nat → ℝ) (h : energy b c K x x = 0) :
    ∀ r < b.dim*b.nv, (c.orient r : ℝ)*x (c.ltog r) = 0 := by
  refine ref_zero b hb c hrule (fun r => (c.orient r : ℝ)*x (c.ltog r)) fun q hq k hk => ?_
  have h1 := (energy_terms b c hr K hK x).2 h q hq
  obtain ⟨_, hJ, hdet⟩ := hr q hq
  rw [velocity_ref b hb] at h1
  have h2 := (smul_eq_zero.1 h1).resolve_left (inv_ne_zero hJ.ne')
  have h3 := Matrix.eq_zero_of_mulVec_eq_zero hdet h2
  exact congrFun h3 ⟨k, hk⟩

/-- A velocity that is zero has no energy with any other. -/
theorem energy_left_zero (b : Bdm) (c : BCell) (K : Matrix (Fin b.dim) (Fin b.dim) ℝ) (x y : Nat → ℝ)
    (h : ∀ r < b.dim*b.nv, (c.orient r : ℝ)*x (c.ltog r) = 0) : energy b c K x y = 0 := by
  unfold energy
  refine sum_eq_zero fun q _ => ?_
  have : velocity b c (hdivBasis b.dim (c.pt q).x (c.pt q).DF (c.pt q).J) x = 0 := by
    funext k
    exact sum_eq_zero fun r hr => by rw [h r (mem_range.1 hr), zero_mul]
  rw [this]
  simp

/-! ### The homogeneous problem -/

/-- Coefficients that are 1 in one row. -/
def unit (a : Nat) : Nat → ℝ := fun a' => if a' = a then 1 else 0

theorem homogeneous (b : Bdm) (hb : Cells b) (perm : Nat → Nat → ℝ) (N : Nat) (hN : Numbered b N)
    (hK : ∀ i < b.nCells, (b.cell i).owned = true → (toMatrix b.dim (perm i)).PosDef)
    (hg : ∀ i < b.nCells, (b.cell i).owned = true → HasRule b (b.cell i) ∧ RegularMap b (b.cell i))
    (hreach : ReachesBoundary b) (x : Nat → ℝ) (h : ∀ y, form b perm x y = 0) : ∀ a < N, x a = 0 := by
  -- testing with a pressure: no outflow
  have hout : ∀ i < b.nCells, (b.cell i).owned = true → outflow b (b.cell i) x = 0 := by
    intro i hi ho
    have h1 := h (unit ((b.cell i).ltog (b.dim*b.nv)))
    unfold form at h1
    rw [sum_eq_single i] at h1
    · rw [if_pos ho] at h1
      have hv : ∀ r < b.dim*b.nv, unit ((b.cell i).ltog (b.dim*b.nv)) ((b.cell i).ltog r) = 0 := by
        intro r hr
        refine if_neg fun he => ?_
        have := (hN.pressure i hi ho i hi ho r (by omega) he).2
        omega
      have h2 : outflow b (b.cell i) (unit ((b.cell i).ltog (b.dim*b.nv))) = 0 :=
        sum_eq_zero fun r hr => by rw [hv r (mem_range.1 hr), mul_zero]
      have h3 : energy b (b.cell i) (toMatrix b.dim (perm i)) x (unit ((b.cell i).ltog (b.dim*b.nv))) = 0 := by
        unfold energy
        refine sum_eq_zero fun q _ => ?_
        have : velocity b (b.cell i) (hdivBasis b.dim ((b.cell i).pt q).x ((b.cell i).pt q).DF
            ((b.cell i).pt q).J) (unit ((b.cell i).ltog (b.dim*b.nv))) = 0 := by
          funext k
          exact sum_eq_zero fun r hr => by rw [hv r (mem_range.1 hr)]; ring
        rw [this]
        simp
      have h4 : pressure b (b.cell i) (unit ((b.cell i).ltog (b.dim*b.nv))) = 1 := if_pos rfl
      rw [h2, h3, h4] at h1
      linarith
    · intro j hj hne
      split
      · rename_i hoj
        have hv : ∀ r < b.dim*b.nv + 1, unit ((b.cell i).ltog (b.dim*b.nv)) ((b.cell j).ltog r) = 0 := by
          intro r hr
          exact if_neg fun he => hne (hN.pressure i hi ho j (mem_range.1 hj) hoj r hr he).1
        have h2 : outflow b (b.cell j) (unit ((b.cell i).ltog (b.dim*b.nv))) = 0 :=
          sum_eq_zero fun r hr => by rw [hv r (by have := mem_range.1 hr; omega), mul_zero]
        have h3 : energy b (b.cell j) (toMatrix b.dim (perm j)) x (unit ((b.cell i).ltog (b.dim*b.nv))) = 0 := by
          unfold energy
          refine sum_eq_zero fun q _ => ?_
          have : velocity b (b.cell j) (hdivBasis b.dim ((b.cell j).pt q).x ((b.cell j).pt q).DF
              ((b.cell j).pt q).J) (unit ((b.cell i).ltog (b.dim*b.nv))) = 0 := by
            funext k
            exact sum_eq_zero fun r hr => by rw [hv r (by have := mem_range.1 hr; omega)]; ring
          rw [this]
          simp
        have h4 : pressure b (b.cell j) (unit ((b.cell i).ltog (b.dim*b.nv))) = 0 := hv _ (by omega)
        rw [h2, h3, h4]
        ring
      · rfl
    · intro hn
      exact absurd (mem_range.2 hi) hn
  -- testing with itself: no energy
  have hen : ∀ i < b.nCells, (b.cell i).owned = true → ∀ r < b.dim*b.nv,
      ((b.cell i).orient r : ℝ)*x ((b.cell i).ltog r) = 0 := by
    have h1 := h x
    unfold form at h1
    have h2 : ∀ i ∈ range b.nCells, 0 ≤ (if (b.cell i).owned then
        energy b (b.cell i) (toMatrix b.dim (perm i)) x x - pressure b (b.cell i) x*outflow b (b.cell i) x
          - pressure b (b.cell i) x*outflow b (b.cell i) x else 0) := by
      intro i hi
      split
      · rename_i ho
        rw [hout i (mem_range.1 hi) ho]
        have := (energy_terms b (b.cell i) (hg i (mem_range.1 hi) ho).2 _ (hK i (mem_range.1 hi) ho) x).1
        linarith
      · exact le_rfl
    intro i hi ho
    have h3 := (sum_eq_zero_iff_of_nonneg h2).1 h1 i (mem_range.2 hi)
    rw [if_pos ho, hout i hi ho] at h3
    exact energy_zero b hb (b.cell i) (hg i hi ho).1 (hg i hi ho).2 _ (hK i hi ho) x (by linarith)
  have hvel : ∀ u, Unknown b u → x (rowOf b u) = 0 := by
    intro u hu
    have := hen u.1 hu.1 hu.2.1 u.2 hu.2.2
    exact (mul_eq_zero.1 this).resolve_left (by
      have := hN.directed u hu
      exact_mod_cast this)
  -- testing with a velocity: pressures balance
  have hbal : ∀ y, ∑ i ∈ range b.nCells, (if (b.cell i).owned then
      pressure b (b.cell i) x*outflow b (b.cell i) y else 0) = 0 := by
    intro y
    have h1 := h y
    unfold form at h1
    rw [← neg_eq_zero, ← sum_neg_distrib]
    refine (sum_congr rfl fun i hi => ?_).trans h1
    split
    · rename_i ho
      rw [energy_left_zero b (b.cell i) _ x y (hen i (mem_range.1 hi) ho), hout i (mem_range.1 hi) ho]
      ring
    · simp
  classical
  set U : Finset (Nat × Nat) := (range b.nCells ×ˢ range (b.dim*b.nv)).filter
    (fun u => (b.cell u.1).owned = true) with hUdef
  have hU : ∀ u, u ∈ U ↔ Unknown b u := by
    intro u
    simp only [hUdef, mem_filter, mem_product, mem_range, Unknown]
    tauto
  have hrow : ∀ u₀, ∑ u ∈ U, (if rowOf b u = rowOf b u₀ then
      pressure b (b.cell u.1) x*(signOf b u : ℝ) else 0) = 0 := by
    intro u₀
    have h1 := hbal (unit (rowOf b u₀))
    rw [hUdef, sum_filter, sum_product]
    refine (sum_congr rfl fun i hi => ?_).trans h1
    by_cases ho : (b.cell i).owned = true
    · rw [if_pos ho, outflow, mul_sum]
      refine sum_congr rfl fun r _ => ?_
      rw [if_pos ho]
      by_cases he : rowOf b (i, r) = rowOf b u₀
      · have h2 : unit (rowOf b u₀) ((b.cell i).ltog r) = 1 := if_pos he
        rw [if_pos he, h2, mul_one]
        rfl
      · have h2 : unit (rowOf b u₀) ((b.cell i).ltog r) = 0 := if_neg he
        rw [if_neg he, h2, mul_zero, mul_zero]
    · rw [if_neg ho]
      exact sum_eq_zero fun r _ => if_neg ho
  have hshare : ∀ i j, ShareUnknown b i j → pressure b (b.cell i) x = pressure b (b.cell j) x := by
    rintro i j ⟨r, r', hu, hv, hne, he⟩
    have h1 := hrow (i, r)
    have h2 : ∑ u ∈ U, (if rowOf b u = rowOf b (i, r) then pressure b (b.cell u.1) x*(signOf b u : ℝ) else 0)
        = ∑ u ∈ ({(i, r), (j, r')} : Finset (Nat × Nat)), pressure b (b.cell u.1) x*(signOf b u : ℝ) := by
      rw [← sum_filter]
      refine sum_congr ?_ fun _ _ => rfl
      ext w
      simp only [mem_filter, hU, mem_insert, mem_singleton]
      constructor
      · rintro ⟨hw, hrw⟩
        exact hN.two _ _ w hu hv hw hne he hrw.symm
      · rintro (rfl | rfl)
        · exact ⟨hu, rfl⟩
        · exact ⟨hv, he.symm⟩
    rw [h2, sum_pair hne, hN.opposite _ _ hu hv hne he] at h1
    have h3 : (signOf b (i, r) : ℝ) ≠ 0 := by
      have := hN.directed _ hu
      exact_mod_cast this
    have h4 : (pressure b (b.cell i) x - pressure b (b.cell j) x)*(signOf b (i, r) : ℝ) = 0 := by
      push_cast at h1
      linear_combination h1
    exact sub_eq_zero.1 ((mul_eq_zero.1 h4).resolve_right h3)
  have hown : ∀ i, HasOwnUnknown b i → pressure b (b.cell i) x = 0 := by
    rintro i ⟨r, hu, hr⟩
    have h1 := hrow (i, r)
    rw [sum_eq_single_of_mem (i, r) ((hU _).2 hu) (fun w hw hne =>
      if_neg fun he => hne (hr w ((hU w).1 hw) he)), if_pos rfl] at h1
    refine (mul_eq_zero.1 h1).resolve_right ?_
    have := hN.directed _ hu
    exact_mod_cast this
  have hpress : ∀ i < b.nCells, (b.cell i).owned = true → pressure b (b.cell i) x = 0 := by
    intro i hi ho
    obtain ⟨j, hij, hj⟩ := hreach i hi ho
    induction hij using Relation.ReflTransGen.head_induction_on with
    | refl => exact hown _ hj
    | head hac _ ih => exact (hshare _ _ hac).trans (ih (by
        obtain ⟨_, _, _, hc, _⟩ := hac
        exact hc.1) (by
        obtain ⟨_, _, _, hc, _⟩ := hac
        exact hc.2.1))
  intro a ha
  obtain ⟨i, hi, ho, r, hr, rfl⟩ := hN.all a ha
  rcases Nat.lt_succ_iff_lt_or_eq.1 hr with h1 | rfl
  · exact hvel (i, r) ⟨hi, ho, h1⟩
  · exact hpress i hi ho

/-- `x` solves the assembled system of `N` rows with right hand side `F`. -/
def SolvesRows (N : Nat) (K : Nat → Nat → ℝ) (F x : Nat → ℝ) : Prop :=
  ∀ a < N, ∑ a' ∈ range N, K a a'*x a' = F a

/-- **C185** The system the BDM method assembles has exactly one solution, whatever the right hand side:
on a mesh of quadrilaterals or hexahedra from each of whose cells a chain of neighbours leads to the
boundary, with symmetric positive definite permeabilities, either of the two quadratures and a regular
map of every cell.  No boundary condition is needed. -/
theorem C185_exactly_one_solution (lu : (Nat → ℝ) → Nat → ℝ) (b : Bdm) (hb : Cells b) (perm : Nat → Nat → ℝ)
    (N : Nat) (hN : Numbered b N)
    (hK : ∀ i < b.nCells, (b.cell i).owned = true → (toMatrix b.dim (perm i)).PosDef)
    (hg : ∀ i < b.nCells, (b.cell i).owned = true → HasRule b (b.cell i) ∧ RegularMap b (b.cell i))
    (hreach : ReachesBoundary b) (s : BState) (h : bdmComputeSystem lu b (empty perm) = .ok s)
    (F : Nat → ℝ) :
    (∃ x, SolvesRows N s.K F x)
    ∧ ∀ x x', SolvesRows N s.K F x → SolvesRows N s.K F x' → ∀ a < N, x a = x' a := by
  have hform : ∀ x y, ∑ a ∈ range N, ∑ a' ∈ range N, y a*x a'*s.K a a' = form b perm x y := fun x y =>
    (C117_system_is_mixed_problem lu b perm (fun i hi ho => ⟨(hK i hi ho).det_pos.ne', by
      have := (hK i hi ho).isHermitian
      rwa [Matrix.IsHermitian, conjTranspose_eq_transpose_of_trivial] at this⟩) N hN.below s h x y).1
  have hzero : ∀ x, SolvesRows N s.K (fun _ => 0) x → ∀ a < N, x a = 0 := by
    intro x hx
    refine homogeneous b hb perm N hN hK hg hreach x fun y => ?_
    rw [← hform]
    refine sum_eq_zero fun a ha => ?_
    have := hx a (mem_range.1 ha)
    calc ∑ a' ∈ range N, y a*x a'*s.K a a' = y a*∑ a' ∈ range N, s.K a a'*x a' := by
          rw [mul_sum]
          exact sum_congr rfl fun _ _ => by ring
      _ = 0 := by rw [this, mul_zero]
  constructor
  · set M : Matrix (Fin N) (Fin N) ℝ := Matrix.of fun i j => s.K i j with hM
    have hdet : M.det ≠ 0 := by
      intro h0
      obtain ⟨v, hv, hMv⟩ := Matrix.exists_mulVec_eq_zero_iff.2 h0
      apply hv
      have hs : SolvesRows N s.K (fun _ => 0) (fun a => if ha : a < N then v ⟨a, ha⟩ else 0) := by
        intro a ha
        have h1 := congrFun hMv ⟨a, ha⟩
        simp only [mulVec, dotProduct, hM, of_apply, Pi.zero_apply] at h1
        dsimp only
        rw [← Fin.sum_univ_eq_sum_range
          (fun a' => s.K a a'*(if ha : a' < N then v ⟨a', ha⟩ else 0)) N]
        refine (sum_congr rfl fun j _ => ?_).trans h1
        rw [dif_pos j.2]
      funext i
      have := hzero _ hs i i.2
      rwa [dif_pos i.2] at this
    set w : Fin N → ℝ := M⁻¹ *ᵥ fun i : Fin N => F i with hw
    have hMw : M *ᵥ w = fun i : Fin N => F i := by
      rw [hw, mulVec_mulVec, mul_nonsing_inv _ (isUnit_iff_ne_zero.2 hdet), one_mulVec]
    refine ⟨fun a => if ha : a < N then w ⟨a, ha⟩ else 0, fun a ha => ?_⟩
    have h1 := congrFun hMw ⟨a, ha⟩
    simp only [mulVec, dotProduct, hM, of_apply] at h1
    dsimp only
    rw [← Fin.sum_univ_eq_sum_range
      (fun a' => s.K a a'*(if ha : a' < N then w ⟨a', ha⟩ else 0)) N]
    refine (sum_congr rfl fun j _ => ?_).trans h1
    rw [dif_pos j.2]
  · intro x x' hx hx' a ha
    have hs : SolvesRows N s.K (fun _ => 0) (fun a => x a - x' a) := by
      intro a ha
      have : ∀ a' ∈ range N, s.K a a'*(x a' - x' a') = s.K a a'*x a' - s.K a a'*x' a' := fun _ _ => by ring
      rw [sum_congr rfl this, sum_sub_distrib, hx a ha, hx' a ha, sub_self]
    exact sub_eq_zero.1 (hzero _ hs a ha)

/-! ### Two squares -/

namespace OneSolutionWitness

open RestWitness (two faceId rows located unknown)

theorem cells : Cells two := Or.inl ⟨rfl, rfl⟩

theorem numbered : Numbered two 16 where
  below := rows
  all := by
    have : ∀ a < 16, ∃ i < 2, ∃ r < 9, (two.cell i).ltog r = a := by decide
    intro a ha
    obtain ⟨i, hi, r, hr, he⟩ := this a ha
    exact ⟨i, hi, rfl, r, hr, he⟩
  pressure := by
    have : ∀ i < 2, ∀ j < 2, ∀ r < 9, (two.cell j).ltog r = (two.cell i).ltog 8 → j = i ∧ r = 8 := by decide
    exact fun i hi _ j hj _ r hr he => this i hi j hj r hr he
  directed := by
    have : ∀ i < 2, ∀ r < 8, (two.cell i).orient r ≠ 0 := by decide
    intro u hu
    rw [unknown] at hu
    exact this u.1 hu.1 u.2 hu.2
  opposite := by
    have : ∀ (i : Fin 2) (r : Fin 8) (j : Fin 2) (r' : Fin 8), (i, r) ≠ (j, r') →
        (two.cell i).ltog r = (two.cell j).ltog r' → (two.cell j).orient r' = -(two.cell i).orient r := by
      decide +kernel
    rintro ⟨i, r⟩ ⟨j, r'⟩ hu hv hne he
    rw [unknown] at hu hv
    exact this ⟨i, hu.1⟩ ⟨r, hu.2⟩ ⟨j, hv.1⟩ ⟨r', hv.2⟩ (fun h => hne (by simpa using h)) he
  two := by
    have : ∀ (i : Fin 2) (r : Fin 8) (j : Fin 2) (r' : Fin 8), (i, r) ≠ (j, r') →
        (two.cell i).ltog r = (two.cell j).ltog r' → ∀ (k : Fin 2) (r'' : Fin 8),
        (two.cell i).ltog r = (two.cell k).ltog r'' → (k, r'') = (i, r) ∨ (k, r'') = (j, r') := by
      decide +kernel
    rintro ⟨i, r⟩ ⟨j, r'⟩ ⟨k, r''⟩ hu hv hw hne he he'
    rw [unknown] at hu hv hw
    have h := this ⟨i, hu.1⟩ ⟨r, hu.2⟩ ⟨j, hv.1⟩ ⟨r', hv.2⟩ (fun h => hne (by simpa using h)) he
      ⟨k, hw.1⟩ ⟨r'', hw.2⟩ he'
    simpa using h

theorem own (i : Nat) (hi : i < 2) : HasOwnUnknown two i := by
  have : ∀ i < 2, ∀ j < 2, ∀ r < 8, (two.cell j).ltog r = (two.cell i).ltog 1 → (j, r) = (i, 1) := by decide
  refine ⟨1, (unknown _).2 ⟨hi, show 1 < 8 by decide⟩, ?_⟩
  rintro ⟨j, r⟩ hu he
  rw [unknown] at hu
  exact this i hi j hu.1 r hu.2 he

theorem rule (c : BCell) (hq : c.nq = 4) (hp : ∀ q, (c.pt q).x = quadX q) : HasRule two c := by
  right
  intro t ht
  have ht0 : t 0 = -1 ∨ t 0 = 1 := by simpa using ht 0 (by decide)
  have ht1 : t 1 = -1 ∨ t 1 = 1 := by simpa using ht 1 (by decide)
  rw [hq]
  have key : ∀ q < 4, quadX q 0 = t 0 → quadX q 1 = t 1 →
      ∃ q < 4, ∀ d < two.dim, (c.pt q).x d = t d := by
    intro q hq h0 h1
    refine ⟨q, hq, fun d hd => ?_⟩
    rw [hp]
    have hd' : d < 2 := hd
    interval_cases d
    · exact h0
    · exact h1
  rcases ht0 with h0 | h0 <;> rcases ht1 with h1 | h1
  · exact key 0 (by decide) (by rw [h0]; norm_num [quadX]) (by rw [h1]; norm_num [quadX])
  · exact key 2 (by decide) (by rw [h0]; norm_num [quadX]) (by rw [h1]; norm_num [quadX])
  · exact key 1 (by decide) (by rw [h0]; norm_num [quadX]) (by rw [h1]; norm_num [quadX])
  · exact key 3 (by decide) (by rw [h0]; norm_num [quadX]) (by rw [h1]; norm_num [quadX])

theorem regular (i : Nat) : RegularMap two (two.cell i) := by
  intro q _
  refine ⟨one_pos, one_pos, ?_⟩
  have : toMatrix two.dim (((two.cell i).pt q).DF) = toMatrix 2 (BdmWitness.perm 1 0) := rfl
  rw [this]
  exact BdmWitness.perm_det 1 one_ne_zero 0

/-- **C185 non-vacuity.**  Two unit squares that share a face, with the permeability 3. -/
example (lu : (Nat → ℝ) → Nat → ℝ) (F : Nat → ℝ) :
    ∃ s, bdmComputeSystem lu two (empty (BdmWitness.perm 3)) = .ok s
      ∧ (∃ x, SolvesRows 16 s.K F x)
      ∧ ∀ x x', SolvesRows 16 s.K F x → SolvesRows 16 s.K F x' → ∀ a < 16, x a = x' a := by
  obtain ⟨s, hs, _⟩ := run_ok lu two (empty (BdmWitness.perm 3)) two.nCells
    (fun i hi _ => located i hi)
  refine ⟨s, hs, C185_exactly_one_solution lu two cells (BdmWitness.perm 3) 16 numbered ?_ ?_ ?_ s hs F⟩
  · intro i _ _
    show (toMatrix 2 (BdmWitness.perm 3 i)).PosDef
    rw [BdmWitness.perm_matrix]
    exact Matrix.PosDef.one.smul (by norm_num)
  · exact fun i _ _ => ⟨rule _ rfl fun _ => rfl, regular i⟩
  · exact fun i hi _ => ⟨i, Relation.ReflTransGen.refl, own i hi⟩

end OneSolutionWitness

end

end TDy.Fe.Props
