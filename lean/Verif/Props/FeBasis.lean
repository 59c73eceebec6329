import Mathlib.Analysis.Calculus.Deriv.Pow
import Mathlib.Analysis.Calculus.Deriv.Add
import Mathlib.Analysis.Calculus.Deriv.Mul
import Mathlib.Tactic.LinearCombination
import Mathlib.Tactic.FinCases
import Mathlib.Tactic.FieldSimp
import Mathlib.Tactic.IntervalCases
import Mathlib.MeasureTheory.Integral.Bochner.Set
import Verif.Model.FeBasis
import Verif.Spec.Fe
import Verif.Proofs.FeBasis

/-!
# C74: the H(div) basis functions
-/

namespace TDy.Fe.Props

open TDy.Fe TDy.Fe.Spec TDy.Fe.Proofs

noncomputable section

/-- Local number of a corner: bit `d` tells on which side it lies in direction `d`
(the drawing above HdivBasisQuad, src/fe/tdyfe.c:204-212). -/
def number2 (v : Corner 2) : Nat := (v 0).toNat + 2*(v 1).toNat
def number3 (v : Corner 3) : Nat := (v 0).toNat + 2*(v 1).toNat + 4*(v 2).toNat

/-- The field of corner `v` and direction `d` on the reference square: two consecutive entries of
`B`, block `local_vertex*dim + dir`. -/
def quadField (v : Corner 2) (d : Fin 2) : Field 2 := fun x e =>
  quadRef (x 0) (x 1) (2*(number2 v*2 + d) + e)

/-- The field of corner `v` and direction `d` on the reference cube. -/
def hexField (v : Corner 3) (d : Fin 3) : Field 3 := fun x e =>
  hexRef (x 0) (x 1) (x 2) (3*(number3 v*3 + d) + e)

/-- The derivative of a polynomial of degree two from its values at -1, 0, 1. -/
theorem deriv_quadratic (f : ℝ → ℝ)
    (h : ∀ t, f t = f 0 + (f 1 - f (-1))/2*t + ((f 1 + f (-1))/2 - f 0)*t^2) (t : ℝ) :
    HasDerivAt f ((f 1 - f (-1))/2 + (f 1 + f (-1) - 2*f 0)*t) t := by
  have h1 : HasDerivAt (fun t => f 0 + (f 1 - f (-1))/2*t + ((f 1 + f (-1))/2 - f 0)*t^2)
      ((f 1 - f (-1))/2 + (f 1 + f (-1) - 2*f 0)*t) t := by
    have h2 := (((hasDerivAt_id' t).const_mul ((f 1 - f (-1))/2)).const_add (f 0)).add
      ((hasDerivAt_pow 2 t).const_mul ((f 1 + f (-1))/2 - f 0))
    refine h2.congr_deriv ?_
    norm_num
    ring
  exact h1.congr_of_eventuallyEq (Filter.Eventually.of_forall h)

/-- What has to be shown about a field whose components are quadratic in their own variable. -/
theorem divergence_quadratic {n : Nat} (F : Field n)
    (h : ∀ x e t, F (Function.update x e t) e =
      F (Function.update x e 0) e + (F (Function.update x e 1) e - F (Function.update x e (-1)) e)/2*t
        + ((F (Function.update x e 1) e + F (Function.update x e (-1)) e)/2
          - F (Function.update x e 0) e)*t^2) :
    HasDivergence F ∧ ∀ x, divergence F x = ∑ e,
      ((F (Function.update x e 1) e - F (Function.update x e (-1)) e)/2
        + (F (Function.update x e 1) e + F (Function.update x e (-1)) e
          - 2*F (Function.update x e 0) e)*x e) :=
  ⟨fun x e => (deriv_quadratic (fun t => F (Function.update x e t) e) (h x e) (x e)).differentiableAt,
   fun x => Finset.sum_congr rfl fun e _ =>
    (deriv_quadratic (fun t => F (Function.update x e t) e) (h x e) (x e)).deriv⟩

theorem quad_divergence (v : Corner 2) (d : Fin 2) :
    HasDivergence (quadField v d) ∧ ∀ x, divergence (quadField v d) x = 1/4 := by
  have h := divergence_quadratic (quadField v d) (by
    intro x e t
    simp only [quadField, number2]
    rcases v 0 <;> rcases v 1 <;> fin_cases d <;> fin_cases e <;>
      simp [quadRef] <;> ring)
  refine ⟨h.1, fun x => (h.2 x).trans ?_⟩
  simp only [quadField, number2, Fin.sum_univ_two]
  rcases v 0 <;> rcases v 1 <;> fin_cases d <;> simp [quadRef] <;> ring

theorem sgn_sq (b : Bool) : sgn b*sgn b = 1 := by cases b <;> norm_num [sgn]

theorem hex_divergence (v : Corner 3) (d : Fin 3) :
    HasDivergence (hexField v d) ∧ ∀ x, divergence (hexField v d) x = 1/8 := by
  have h := divergence_quadratic (hexField v d) (by
    intro x e t
    simp only [hexField, number3, hexRef_closed]
    fin_cases d <;> fin_cases e <;> simp [hexClosed] <;> ring)
  refine ⟨h.1, fun x => (h.2 x).trans ?_⟩
  simp only [hexField, number3, hexRef_closed, Fin.sum_univ_three]
  have ha := sgn_sq (v 0)
  have hb := sgn_sq (v 1)
  have hc := sgn_sq (v 2)
  generalize sgn (v 0) = a at *
  generalize sgn (v 1) = b at *
  generalize sgn (v 2) = c at *
  fin_cases d <;> simp [hexClosed]
  · linear_combination (1/8)*(1 + b*x 1)*(1 + c*x 2)*ha
  · linear_combination (1/8)*(1 + a*x 0)*(1 + c*x 2)*hb
  · linear_combination (1/8)*(1 + a*x 0)*(1 + b*x 1)*hc

theorem quad_nodal : Nodal quadField := by
  intro v d e s x hx
  simp only [outward, quadField, number2]
  generalize hv0 : v 0 = a
  generalize hv1 : v 1 = b
  have e0 : (Finset.univ : Finset (Fin 2)).erase 0 = {1} := by decide
  have e1 : (Finset.univ : Finset (Fin 2)).erase 1 = {0} := by decide
  fin_cases d <;> fin_cases e <;> simp only [Fin.zero_eta, Fin.mk_one, Fin.isValue] at hx ⊢ <;>
    rw [hx] <;> simp only [hv0, hv1, e0, e1, Finset.prod_singleton] <;>
    rcases a <;> rcases b <;> rcases s <;> simp [sgn, quadRef] <;> ring

theorem hex_nodal : Nodal hexField := by
  intro v d e s x hx
  simp only [outward, hexField, number3, hexRef_closed]
  have h0 := sgn_sq (v 0)
  have h1 := sgn_sq (v 1)
  have h2 := sgn_sq (v 2)
  have e0 : (Finset.univ : Finset (Fin 3)).erase 0 = {1, 2} := by decide
  have e1 : (Finset.univ : Finset (Fin 3)).erase 1 = {0, 2} := by decide
  have e2 : (Finset.univ : Finset (Fin 3)).erase 2 = {0, 1} := by decide
  have hs := sgn_sq s
  -- on the face of the corner `sgn s = sgn (v e)`, on the opposite face `sgn s = - sgn (v e)`
  have hcmp : ∀ b : Bool, (s = b ∧ sgn s = sgn b) ∨ (s ≠ b ∧ sgn s = -sgn b) := by
    intro b; cases s <;> cases b <;> simp [sgn]
  fin_cases d <;> fin_cases e <;> simp only [Fin.zero_eta, Fin.mk_one, Fin.reduceFinMk, Fin.isValue]
    at hx ⊢ <;> rw [hx] <;> simp only [hexClosed, e0, e1, e2]
  · rw [Finset.prod_pair (by decide)]
    rcases hcmp (v 0) with ⟨h, hh⟩ | ⟨h, hh⟩
    · rw [if_pos ⟨trivial, h⟩, hh]
      linear_combination (1/8)*(1 + sgn (v 1)*x 1)*(1 + sgn (v 2)*x 2)*(2 + sgn (v 0)*sgn (v 0) - 1 + 1)*h0
    · rw [if_neg (fun h' => h h'.2), hh]
      linear_combination (1/8)*(1 + sgn (v 1)*x 1)*(1 + sgn (v 2)*x 2)*sgn (v 0)*sgn (v 0)*h0
  · rw [if_neg (fun h => absurd h.1 (by decide))]
    linear_combination (-sgn s*sgn (v 1)/16)*hs
  · rw [if_neg (fun h => absurd h.1 (by decide))]
    linear_combination (-sgn s*sgn (v 2)*(1 + sgn (v 1)*x 1)/16)*hs
  · rw [if_neg (fun h => absurd h.1 (by decide))]
    linear_combination (-sgn s*sgn (v 0)*(1 + sgn (v 2)*x 2)/16)*hs
  · rw [Finset.prod_pair (by decide)]
    rcases hcmp (v 1) with ⟨h, hh⟩ | ⟨h, hh⟩
    · rw [if_pos ⟨trivial, h⟩, hh]
      linear_combination (1/8)*(1 + sgn (v 0)*x 0)*(1 + sgn (v 2)*x 2)*(2 + sgn (v 1)*sgn (v 1) - 1 + 1)*h1
    · rw [if_neg (fun h' => h h'.2), hh]
      linear_combination (1/8)*(1 + sgn (v 0)*x 0)*(1 + sgn (v 2)*x 2)*sgn (v 1)*sgn (v 1)*h1
  · rw [if_neg (fun h => absurd h.1 (by decide))]
    linear_combination (-sgn s*sgn (v 2)/16)*hs
  · rw [if_neg (fun h => absurd h.1 (by decide))]
    linear_combination (-sgn s*sgn (v 0)/16)*hs
  · rw [if_neg (fun h => absurd h.1 (by decide))]
    linear_combination (-sgn s*sgn (v 1)*(1 + sgn (v 0)*x 0)/16)*hs
  · rw [Finset.prod_pair (by decide)]
    rcases hcmp (v 2) with ⟨h, hh⟩ | ⟨h, hh⟩
    · rw [if_pos ⟨trivial, h⟩, hh]
      linear_combination (1/8)*(1 + sgn (v 0)*x 0)*(1 + sgn (v 1)*x 1)*(2 + sgn (v 2)*sgn (v 2) - 1 + 1)*h2
    · rw [if_neg (fun h' => h h'.2), hh]
      linear_combination (1/8)*(1 + sgn (v 0)*x 0)*(1 + sgn (v 1)*x 1)*sgn (v 2)*sgn (v 2)*h2

/-- The reference cell has volume `2^n`. -/
theorem cell_volume (n : Nat) : (MeasureTheory.volume (cell n)).toReal = 2^n := by
  rw [cell, Real.volume_Icc_pi_toReal (by intro i; norm_num)]
  norm_num

/-- **C74** The divergence of every basis function of the quadrilateral exists everywhere and its
integral over the reference cell is 1. -/
theorem C74_unit_divergence_quad (v : Corner 2) (d : Fin 2) :
    HasDivergence (quadField v d) ∧ ∫ x in cell 2, divergence (quadField v d) x = 1 := by
  refine ⟨(quad_divergence v d).1, ?_⟩
  simp only [(quad_divergence v d).2]
  rw [MeasureTheory.setIntegral_const, MeasureTheory.measureReal_def, cell_volume]
  norm_num

/-- **C74** The divergence of every basis function of the hexahedron exists everywhere and its
integral over the reference cell is 1. -/
theorem C74_unit_divergence_hex (v : Corner 3) (d : Fin 3) :
    HasDivergence (hexField v d) ∧ ∫ x in cell 3, divergence (hexField v d) x = 1 := by
  refine ⟨(hex_divergence v d).1, ?_⟩
  simp only [(hex_divergence v d).2]
  rw [MeasureTheory.setIntegral_const, MeasureTheory.measureReal_def, cell_volume]
  norm_num

/-- **C74** The basis functions of the quadrilateral are nodal. -/
theorem C74_nodal_quad : Nodal quadField := quad_nodal

/-- **C74** The basis functions of the hexahedron are nodal. -/
theorem C74_nodal_hex : Nodal hexField := hex_nodal

theorem forN_sum (n : Nat) (f : Nat → ℝ) (a : ℝ) :
    forN n (fun j v => v + f j) a = a + ∑ j ∈ Finset.range n, f j := by
  induction n with
  | zero => simp [forN]
  | succ n ih => rw [forN, ih, Finset.sum_range_succ]; ring

/-- **C74** The Piola transformation keeps the flux through every piece of surface: if `m` is the
image of the reference area vector `a` (`DFᵀ m = J a`), the transformed field has the flux through
`m` that the reference field has through `a`. -/
theorem C74_piola_keeps_flux (dim : Nat) (u DF a m : Nat → ℝ) (J : ℝ) (hJ : J ≠ 0)
    (hm : ∀ j < dim, ∑ i ∈ Finset.range dim, DF (i*dim + j)*m i = J*a j) :
    ∑ i ∈ Finset.range dim, piola u DF J dim i*m i = ∑ j ∈ Finset.range dim, u j*a j := by
  simp only [piola, forN_sum, zero_add]
  calc ∑ i ∈ Finset.range dim, (∑ j ∈ Finset.range dim, DF (i*dim + j)*u j)/J*m i
      = ∑ i ∈ Finset.range dim, ∑ j ∈ Finset.range dim, DF (i*dim + j)*m i*(u j/J) := by
        refine Finset.sum_congr rfl fun i _ => ?_
        rw [Finset.sum_div, Finset.sum_mul]
        exact Finset.sum_congr rfl fun j _ => by ring
    _ = ∑ j ∈ Finset.range dim, ∑ i ∈ Finset.range dim, DF (i*dim + j)*m i*(u j/J) :=
        Finset.sum_comm
    _ = ∑ j ∈ Finset.range dim, u j*a j := by
        refine Finset.sum_congr rfl fun j hj => ?_
        rw [← Finset.sum_mul, hm j (Finset.mem_range.1 hj)]
        field_simp

/-- A sheared, stretched cell meets the hypothesis: `DF = (2 1; 0 3)`, `J = 6`, `a = (1, 0)`,
`m = (3, -1)`. -/
example : ∀ j < 2, ∑ i ∈ Finset.range 2,
    (fun k => if k = 0 then (2 : ℝ) else if k = 1 then 1 else if k = 2 then 0 else 3) (i*2 + j)
      *(fun k => if k = 0 then (3 : ℝ) else -1) i = 6*(fun k => if k = 0 then (1 : ℝ) else 0) j := by
  intro j hj
  interval_cases j <;> norm_num [Finset.sum_range_succ]

/-- The upper right corner of the square: its function of direction 0 leaves through the right side
with total flux 1 and through no other side. -/
example (y : ℝ) : outward (quadField (fun _ => true) 0) 0 true ![1, y] = (1 + y)/2
    ∧ outward (quadField (fun _ => true) 0) 0 false ![-1, y] = 0 := by
  constructor
  · rw [C74_nodal_quad _ _ _ _ _ (by simp [sgn])]
    have e0 : (Finset.univ : Finset (Fin 2)).erase 0 = {1} := by decide
    simp [e0, sgn]
  · rw [C74_nodal_quad _ _ _ _ _ (by simp [sgn])]
    simp

end

end TDy.Fe.Props
