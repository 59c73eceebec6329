import Verif.Proofs.RelPerm
import Mathlib.LinearAlgebra.Matrix.ToLinearEquiv
import Mathlib.Tactic.FinCases
import Mathlib.Tactic.LinearCombination

/-! # The smoothing polynomial -/

namespace TDy.Curves.Proofs

open TDy.Curves Matrix

theorem cubicMatrix_mulVec (x0 x1 x2 dx : ℝ) (v : Fin 4 → ℝ) :
    (cubicMatrix x0 x1 x2 dx).mulVec v =
      ![(cubicEvaluate v x2 x0 dx).k, (cubicEvaluate v x1 x0 dx).k,
        (cubicEvaluate v x2 x0 dx).dk, (cubicEvaluate v x1 x0 dx).dk] := by
  funext i
  fin_cases i <;>
    · simp [cubicMatrix, cubicEvaluate, Matrix.mulVec, dotProduct, Fin.sum_univ_succ]
      norm_num
      try ring

theorem cubicMatrix_det_ne_zero {x0 x1 x2 dx : ℝ} (hx : x1 ≠ x2) (hdx : dx ≠ 0) :
    (cubicMatrix x0 x1 x2 dx).det ≠ 0 := by
  intro hdet
  obtain ⟨v, hv, h⟩ := Matrix.exists_mulVec_eq_zero_iff.2 hdet
  rw [cubicMatrix_mulVec] at h
  have e1 := congrFun h 0
  have e2 := congrFun h 1
  have e3 := congrFun h 2
  have e4 := congrFun h 3
  simp only [Matrix.cons_val, cubicEvaluate, Pi.zero_apply] at e1 e2 e3 e4
  have hab : (x1-x0)/dx ≠ (x2-x0)/dx := by
    intro e
    rw [div_left_inj' hdx] at e
    exact hx (by linarith)
  generalize (x1-x0)/dx = a at *
  generalize (x2-x0)/dx = b at *
  rw [div_eq_zero_iff] at e3 e4
  replace e3 := e3.resolve_right hdx
  replace e4 := e4.resolve_right hdx
  norm_num at e3 e4
  have hne : a - b ≠ 0 := sub_ne_zero.2 hab
  have s1 : 2*v 2 + 3*(a+b)*v 3 = 0 := by
    apply mul_left_cancel₀ hne
    linear_combination e4 - e3
  have s2 : v 1 + (a+b)*v 2 + (a^2+a*b+b^2)*v 3 = 0 := by
    apply mul_left_cancel₀ hne
    linear_combination e2 - e1
  have s3 : v 2 + (a+2*b)*v 3 = 0 := by
    apply mul_left_cancel₀ hne
    linear_combination s2 - e3
  have v3 : v 3 = 0 := by
    apply mul_left_cancel₀ hne
    linear_combination s1 - 2*s3
  have v2 : v 2 = 0 := by rw [v3] at s3; linarith
  have v1 : v 1 = 0 := by rw [v3, v2] at s2; linarith
  have v0 : v 0 = 0 := by rw [v3, v2, v1] at e1; linarith
  apply hv
  funext i
  fin_cases i <;> simp [v0, v1, v2, v3]

theorem cubicSetup_spec {x0 x1 x2 dx : ℝ} (hx : x1 ≠ x2) (hdx : dx ≠ 0) (rhs : Fin 4 → ℝ) :
    ∃ c, cubicSetup x0 x1 x2 dx rhs = some c ∧
      (cubicEvaluate c x2 x0 dx).k = rhs 0 ∧ (cubicEvaluate c x1 x0 dx).k = rhs 1 ∧
      (cubicEvaluate c x2 x0 dx).dk = rhs 2 ∧ (cubicEvaluate c x1 x0 dx).dk = rhs 3 := by
  have hd := cubicMatrix_det_ne_zero (x0 := x0) hx hdx
  refine ⟨_, by rw [cubicSetup, if_pos hd], ?_⟩
  have h : (cubicMatrix x0 x1 x2 dx).mulVec ((cubicMatrix x0 x1 x2 dx)⁻¹.mulVec rhs) = rhs := by
    rw [Matrix.mulVec_mulVec, Matrix.mul_nonsing_inv _ (isUnit_iff_ne_zero.2 hd),
      Matrix.one_mulVec]
  rw [cubicMatrix_mulVec] at h
  refine ⟨?_, ?_, ?_, ?_⟩
  · simpa using congrFun h 0
  · simpa using congrFun h 1
  · simpa using congrFun h 2
  · simpa using congrFun h 3

theorem cubic_hasDerivAt (c : Fin 4 → ℝ) (x x0 dx : ℝ) :
    HasDerivAt (fun x => (cubicEvaluate c x x0 dx).k) (cubicEvaluate c x x0 dx).dk x := by
  simp only [cubicEvaluate]
  have d0 : HasDerivAt (fun x : ℝ => (x-x0)/dx) (1/dx) x :=
    ((hasDerivAt_id x).sub_const x0).div_const dx
  have d1 := (d0.mul_const (c 3)).const_add (c 2)
  have d2 := (d0.mul d1).const_add (c 1)
  have d3 := (d0.mul d2).const_add (c 0)
  refine HasDerivAt.congr_deriv
    (f := fun x => c 0 + (x-x0)/dx*(c 1 + (x-x0)/dx*(c 2 + (x-x0)/dx*c 3))) d3 ?_
  simp only [Pi.mul_apply]
  norm_num
  ring

end TDy.Curves.Proofs
