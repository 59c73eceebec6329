import Verif.Props.BdmLinearCell

/-!
# C209: linear pressures are exact for the BDM method
-/

namespace TDy.Fe.Props

open TDy.Fe TDy.Fe.Spec TDy.Fe.Proofs Finset Matrix

noncomputable section

/-- The gradient of the pressure in the coordinates of the reference cell. -/
def refGradient (b : Bdm) (m : ElementMap) (γ : Fin b.dim → ℝ) (j : Nat) : ℝ :=
  ∑ k : Fin b.dim, γ k*m.D (k*b.dim + j)

theorem linear_place (b : Bdm) (m : ElementMap) (p0 : ℝ) (γ : Fin b.dim → ℝ) (ξ : Nat → ℝ) :
    linearPressure p0 γ (m.place b.dim ξ)
      = linearPressure p0 γ m.centre + ∑ j ∈ range b.dim, refGradient b m γ j*ξ j := by
  unfold linearPressure ElementMap.place refGradient
  simp only [mul_add, sum_add_distrib, sum_mul, mul_sum]
  rw [sum_comm (s := range b.dim), add_assoc]
  congr 2
  exact sum_congr rfl fun _ _ => sum_congr rfl fun _ _ => by ring

theorem linear_third (b : Bdm) (m : ElementMap) (p0 : ℝ) (γ : Fin b.dim → ℝ) (r : Nat) :
    linearPressure p0 γ (m.place b.dim (thirdOf b.dim r))
      = 2/3*linearPressure p0 γ (m.place b.dim (faceCentreOf b.dim r))
        + 1/3*linearPressure p0 γ (m.place b.dim (cornerOf b.dim r)) := by
  rw [linear_place, linear_place b m p0 γ (faceCentreOf b.dim r), linear_place b m p0 γ (cornerOf b.dim r)]
  have : ∀ j ∈ range b.dim, refGradient b m γ j*thirdOf b.dim r j
      = 2/3*(refGradient b m γ j*faceCentreOf b.dim r j) + 1/3*(refGradient b m γ j*cornerOf b.dim r j) := by
    intro j _
    unfold thirdOf faceCentreOf cornerOf
    split <;> ring
  rw [sum_congr rfl this, sum_add_distrib, ← mul_sum, ← mul_sum]
  ring

theorem linear_congr {dim : Nat} (p0 : ℝ) (γ : Fin dim → ℝ) (x y : Nat → ℝ) (h : ∀ k < dim, x k = y k) :
    linearPressure p0 γ x = linearPressure p0 γ y := by
  unfold linearPressure
  exact congrArg _ (sum_congr rfl fun k _ => by rw [h k k.2])

/-! ### Velocities -/

/-- The velocity `U` on the reference cell. -/
def refConstant (b : Bdm) (m : ElementMap) (U : Fin b.dim → ℝ) (d : Nat) : ℝ :=
  m.J*∑ k : Fin b.dim, ofMatrix (toMatrix b.dim m.D)⁻¹ (d*b.dim + k)*U k

theorem area_dot (b : Bdm) (m : ElementMap) (U : Fin b.dim → ℝ) (r : Nat) :
    U ⬝ᵥ areaOf b m r = quadX (r / b.dim) (r % b.dim)*refConstant b m U (r % b.dim) := by
  unfold areaOf refConstant dotProduct
  rw [mul_sum, mul_sum]
  exact sum_congr rfl fun k _ => by ring

theorem ofMatrix_apply' {n : Nat} (M : Matrix (Fin n) (Fin n) ℝ) (i j : Fin n) :
    ofMatrix M (i*n + j) = M i j := by
  have hn : 0 < n := i.pos
  have h1 : (i.1*n + j.1) / n = i := by
    rw [Nat.add_comm, Nat.add_mul_div_right _ _ hn, Nat.div_eq_of_lt j.2, zero_add]
  have h2 : (i.1*n + j.1) % n = j := by
    rw [Nat.add_comm, Nat.add_mul_mod_self_right, Nat.mod_eq_of_lt j.2]
  unfold ofMatrix
  rw [dif_pos ⟨by rw [h1]; exact i.2, by rw [h2]; exact j.2⟩]
  congr 1 <;> exact Fin.ext (by assumption)

/-- The fluxes of `U` as coefficients on the reference cell. -/
theorem refVelocity_area (b : Bdm) (hb : Cells b) (m : ElementMap) (U : Fin b.dim → ℝ) (a : Nat → ℝ)
    (ha : ∀ r < b.dim*b.nv, a r = U ⬝ᵥ areaOf b m r) (ξ : Nat → ℝ) :
    (fun j : Fin b.dim => refVelocity b.dim b.nv a ξ j) = m.J • ((toMatrix b.dim m.D)⁻¹ *ᵥ U) := by
  funext j
  unfold refVelocity
  have h3 : ∀ r ∈ range (b.dim*b.nv), a r*refBasis b.dim ξ (r*b.dim + j)
      = quadX (r / b.dim) (r % b.dim)*refConstant b m U (r % b.dim)*refBasis b.dim ξ (r*b.dim + j) := by
    intro r hr
    rw [ha r (mem_range.1 hr), area_dot]
  rw [sum_congr rfl h3, ref_constant b.dim b.nv hb ξ (refConstant b m U) j j.2]
  unfold refConstant
  rw [Pi.smul_apply, smul_eq_mul, mulVec, dotProduct]
  exact congrArg _ (sum_congr rfl fun k _ => by rw [ofMatrix_apply'])

/-- Coefficients that are the fluxes of `U` give the velocity `U` everywhere. -/
theorem velocity_constant (b : Bdm) (hb : Cells b) (c : BCell) (m : ElementMap)
    (hdet : (toMatrix b.dim m.D).det ≠ 0) (hJ : m.J ≠ 0) (U : Fin b.dim → ℝ) (x : Nat → ℝ)
    (hx : ∀ r < b.dim*b.nv, (c.orient r : ℝ)*x (c.ltog r) = U ⬝ᵥ areaOf b m r) (ξ : Nat → ℝ) :
    velocity b c (hdivBasis b.dim ξ m.D m.J) x = U := by
  have h1 := velocity_ref b hb c ⟨ξ, 0, m.D, m.J, 0⟩ x
  dsimp only at h1
  rw [h1]
  rw [refVelocity_area b hb m U _ hx ξ, mulVec_smul, mulVec_mulVec, mul_nonsing_inv _ (isUnit_iff_ne_zero.2 hdet), one_mulVec, smul_smul,
    inv_mul_cancel₀ hJ, one_smul]

/-- Only the fluxes of `U` give the velocity `U` everywhere. -/
theorem constant_velocity (b : Bdm) (hb : Cells b) (c : BCell) (hrule : HasRule b c) (m : ElementMap)
    (hdet : (toMatrix b.dim m.D).det ≠ 0) (hJ : m.J ≠ 0) (U : Fin b.dim → ℝ) (x : Nat → ℝ)
    (h : ∀ ξ : Nat → ℝ, velocity b c (hdivBasis b.dim ξ m.D m.J) x = U) :
    ∀ r < b.dim*b.nv, (c.orient r : ℝ)*x (c.ltog r) = U ⬝ᵥ areaOf b m r := by
  have hz := ref_zero b hb c hrule (fun r => (c.orient r : ℝ)*x (c.ltog r) - U ⬝ᵥ areaOf b m r) (by
    intro q _ k hk
    have h1 := velocity_ref b hb c ⟨(c.pt q).x, 0, m.D, m.J, 0⟩ x
    dsimp only at h1
    rw [h] at h1
    have h2 : (fun j : Fin b.dim => refVelocity b.dim b.nv (fun r => (c.orient r : ℝ)*x (c.ltog r))
        (c.pt q).x j) = m.J • ((toMatrix b.dim m.D)⁻¹ *ᵥ U) := by
      rw [h1, mulVec_smul, mulVec_mulVec, nonsing_inv_mul _ (isUnit_iff_ne_zero.2 hdet), one_mulVec, smul_smul,
        mul_inv_cancel₀ hJ, one_smul]
    have h3 := refVelocity_area b hb m U (fun r => U ⬝ᵥ areaOf b m r) (fun _ _ => rfl) (c.pt q).x
    have h4 := congrFun (h2.trans h3.symm) ⟨k, hk⟩
    dsimp only at h4
    unfold refVelocity at h4 ⊢
    simp only [sub_mul, sum_sub_distrib]
    rw [h4, sub_self])
  exact fun r hr => sub_eq_zero.1 (hz r hr)

/-- The velocity at a quadrature point of an affine cell. -/
theorem toMatrix_congr (n : Nat) (a a' : Nat → ℝ) (h : ∀ k < n*n, a k = a' k) :
    toMatrix n a = toMatrix n a' := by
  ext i j
  rw [toMatrix_apply, toMatrix_apply]
  refine h _ ?_
  calc i.1*n + j.1 < i.1*n + n := by have := j.2; omega
    _ = (i.1 + 1)*n := by ring
    _ ≤ n*n := Nat.mul_le_mul_right n i.2

theorem velocity_point (b : Bdm) (hb : Cells b) (c : BCell) (m : ElementMap) (ha : AffineCell b c m) (q : Nat)
    (hq : q < c.nq) (x : Nat → ℝ) :
    velocity b c (hdivBasis b.dim (c.pt q).x (c.pt q).DF (c.pt q).J) x
      = velocity b c (hdivBasis b.dim (c.pt q).x m.D m.J) x := by
  have h1 := velocity_ref b hb c ⟨(c.pt q).x, 0, m.D, m.J, 0⟩ x
  dsimp only at h1
  rw [velocity_ref b hb c (c.pt q) x, h1, ha.jacobian q hq, toMatrix_congr b.dim _ _ (ha.matrix q hq)]

/-- What a velocity `U = -K γ` contributes to the equations of a cell. -/
theorem energy_linear (b : Bdm) (hb : Cells b) (c : BCell) (m : ElementMap) (ha : AffineCell b c m)
    (T : Nat → Nat → ℝ) (hT : ∀ r < b.dim*b.nv, ∀ j < b.dim,
      ∑ q ∈ range c.nq, (c.pt q).w*refBasis b.dim (c.pt q).x (r*b.dim + j) = T r j)
    (K : Matrix (Fin b.dim) (Fin b.dim) ℝ) (hdet : K.det ≠ 0) (γ U : Fin b.dim → ℝ) (hU : K *ᵥ γ = -U)
    (x y : Nat → ℝ) (hx : ∀ r < b.dim*b.nv, (c.orient r : ℝ)*x (c.ltog r) = U ⬝ᵥ areaOf b m r) :
    energy b c K x y = -∑ r ∈ range (b.dim*b.nv), (c.orient r : ℝ)*y (c.ltog r)
      *∑ j ∈ range b.dim, refGradient b m γ j*T r j := by
  have hK : K⁻¹ *ᵥ U = -γ := by
    rw [show U = -(K *ᵥ γ) by rw [hU, neg_neg], mulVec_neg, mulVec_mulVec,
      nonsing_inv_mul _ (isUnit_iff_ne_zero.2 hdet), one_mulVec]
  have hJ := ha.pos.ne'
  have hD : (toMatrix b.dim m.D).det ≠ 0 := by rw [ha.det]; exact hJ
  have hpt : ∀ q ∈ range c.nq,
      ((K⁻¹ *ᵥ velocity b c (hdivBasis b.dim (c.pt q).x (c.pt q).DF (c.pt q).J) x) ⬝ᵥ
        velocity b c (hdivBasis b.dim (c.pt q).x (c.pt q).DF (c.pt q).J) y)*((c.pt q).w*(c.pt q).J)
      = -∑ r ∈ range (b.dim*b.nv), (c.orient r : ℝ)*y (c.ltog r)*∑ j ∈ range b.dim,
          refGradient b m γ j*((c.pt q).w*refBasis b.dim (c.pt q).x (r*b.dim + j)) := by
    intro q hq
    have hq' := mem_range.1 hq
    rw [velocity_point b hb c m ha q hq' x, velocity_point b hb c m ha q hq' y,
      velocity_constant b hb c m hD hJ U x hx, hK, ha.jacobian q hq']
    have h1 := velocity_ref b hb c ⟨(c.pt q).x, 0, m.D, m.J, 0⟩ y
    dsimp only at h1
    rw [h1, dotProduct_smul, neg_dotProduct, dotProduct_mulVec]
    have h2 : ∀ j : Fin b.dim, (γ ᵥ* toMatrix b.dim m.D) j = refGradient b m γ j := by
      intro j
      unfold vecMul dotProduct refGradient
      exact sum_congr rfl fun k _ => rfl
    have h3 : (γ ᵥ* toMatrix b.dim m.D) ⬝ᵥ (fun j : Fin b.dim =>
        refVelocity b.dim b.nv (fun r => (c.orient r : ℝ)*y (c.ltog r)) (c.pt q).x j)
        = ∑ j ∈ range b.dim, refGradient b m γ j*refVelocity b.dim b.nv
          (fun r => (c.orient r : ℝ)*y (c.ltog r)) (c.pt q).x j := by
      rw [dotProduct, ← Fin.sum_univ_eq_sum_range (fun j => refGradient b m γ j*refVelocity b.dim b.nv
          (fun r => (c.orient r : ℝ)*y (c.ltog r)) (c.pt q).x j)]
      exact sum_congr rfl fun j _ => by rw [h2]
    rw [h3, smul_eq_mul]
    have h4 : m.J⁻¹*-(∑ j ∈ range b.dim, refGradient b m γ j*refVelocity b.dim b.nv
          (fun r => (c.orient r : ℝ)*y (c.ltog r)) (c.pt q).x j)*((c.pt q).w*m.J)
        = -(∑ j ∈ range b.dim, refGradient b m γ j*refVelocity b.dim b.nv
          (fun r => (c.orient r : ℝ)*y (c.ltog r)) (c.pt q).x j)*(c.pt q).w := by
      field_simp
    rw [h4, neg_mul, neg_inj, sum_mul]
    unfold refVelocity
    simp only [mul_sum, sum_mul]
    rw [sum_comm]
    exact sum_congr rfl fun r _ => sum_congr rfl fun j _ => by ring
  unfold energy
  rw [sum_congr rfl hpt, sum_neg_distrib, neg_inj, sum_comm]
  refine sum_congr rfl fun r hr => ?_
  rw [← mul_sum, sum_comm]
  refine congrArg _ (sum_congr rfl fun j hj => ?_)
  rw [← mul_sum, hT r (mem_range.1 hr) j (mem_range.1 hj)]

/-! ### Faces -/

open Classical in
/-- `<g, v.n>` over a face with the linear pressure. -/
theorem face_linear (b : Bdm) (hb : Cells b) (c : BCell) (f : BFace) (m : ElementMap) (hJ : m.J ≠ 0)
    (dir side : Nat) (hf : FaceAt b c f dir side) (ha : AffineFace b f m dir side) (p0 : ℝ)
    (γ : Fin b.dim → ℝ)
    (hg : ∀ q < f.nq, (f.pt q).g = linearPressure p0 γ (m.place b.dim (singlePoint dir side (f.pt q).y)))
    (y : Nat → ℝ) :
    faceIntegral b c f y = ∑ r ∈ range (b.dim*b.nv), (c.orient r : ℝ)*y (c.ltog r)
      *(if OnSide b r dir side then linearPressure p0 γ (m.place b.dim (thirdOf b.dim r)) else 0) := by
  obtain ⟨s, rfl⟩ : ∃ s : Bool, side = s.toNat := by
    have := ha.side_lt
    interval_cases side
    · exact ⟨false, rfl⟩
    · exact ⟨true, rfl⟩
  rw [face_points b hb c f dir s hf ha.dir_lt (fun q hq => by rw [ha.jacobian q hq]; exact hJ) (by
    intro q hq j hj
    rw [ha.jacobian q hq, ← ha.normal q hq j hj]
    refine sum_congr rfl fun k hk => ?_
    rw [ha.matrix q hq]
    have hk' := mem_range.1 hk
    calc k*b.dim + j < k*b.dim + b.dim := by omega
      _ = (k + 1)*b.dim := by ring
      _ ≤ b.dim*b.dim := Nat.mul_le_mul_right _ hk') y]
  refine sum_congr rfl fun r hr => congrArg _ ?_
  have hr' := mem_range.1 hr
  have h1 : ∀ q ∈ range f.nq, (f.pt q).w*((f.pt q).g*(sgn s*refBasis b.dim
      (singlePoint dir s.toNat (f.pt q).y) (r*b.dim + dir)))
      = (f.pt q).w*((linearPressure p0 γ m.centre + ∑ j ∈ range b.dim, refGradient b m γ j
        *singlePoint dir s.toNat (f.pt q).y j)*(sgn s*refBasis b.dim
      (singlePoint dir s.toNat (f.pt q).y) (r*b.dim + dir))) := by
    intro q hq
    rw [hg q (mem_range.1 hq), linear_place]
  rw [sum_congr rfl h1, linear_place]
  have hdir := ha.dir_lt
  have hrule := ha.rule
  unfold OnSide
  generalize linearPressure p0 γ m.centre = A
  generalize refGradient b m γ = G
  rcases hb with ⟨hd, hv⟩ | ⟨hd, hv⟩
  · rw [hd, hv] at hr'
    simp only [hd] at hdir hrule ⊢
    rw [face_moment2 f.nq _ _ hrule r hr' dir hdir s A G]
  · rw [hd, hv] at hr'
    simp only [hd] at hdir hrule ⊢
    rw [face_moment3 f.nq _ _ hrule r hr' dir hdir s A G]

/-! ### The whole mesh -/

/-- Coefficients that pass every test solve the system. -/
theorem solves_of_tests (lu : (Nat → ℝ) → Nat → ℝ) (b : Bdm) (perm : Nat → Nat → ℝ)
    (hK : ∀ i < b.nCells, (b.cell i).owned = true →
      (toMatrix b.dim (perm i)).det ≠ 0 ∧ (toMatrix b.dim (perm i)).IsSymm)
    (N : Nat) (hN : RowsBelow b N) (s : BState) (h : bdmComputeSystem lu b (empty perm) = .ok s)
    (x : Nat → ℝ) (htest : ∀ y, form b perm x y = load b y) : SolvesRows N s.K s.F x := by
  intro a ha
  have hsys := C117_system_is_mixed_problem lu b perm hK N hN s h x (unit a)
  rw [htest, ← hsys.2] at hsys
  have h1 := hsys.1
  have hl : ∀ G : Nat → ℝ, ∑ c ∈ range N, unit a c*G c = G a := by
    intro G
    unfold unit
    rw [sum_eq_single a]
    · simp
    · intro c _ hc; simp [hc]
    · intro hn; exact absurd (mem_range.2 ha) hn
  rw [hl s.F] at h1
  rw [← h1]
  calc _ = ∑ c ∈ range N, unit a c*∑ a' ∈ range N, s.K c a'*x a' :=
        (hl (fun c => ∑ a' ∈ range N, s.K c a'*x a')).symm
    _ = _ := by
        refine sum_congr rfl fun c _ => ?_
        rw [mul_sum]
        exact sum_congr rfl fun a' _ => by ring

/-- The equations of a cell for exact coefficients: the pressure at the point `T r` of the cell that the
quadrature gives to velocity unknown `r`. -/
theorem form_linear (b : Bdm) (hb : Cells b) (perm : Nat → Nat → ℝ)
    (hdet : ∀ i < b.nCells, (b.cell i).owned = true → (toMatrix b.dim (perm i)).det ≠ 0)
    (map : Nat → ElementMap)
    (haff : ∀ i < b.nCells, (b.cell i).owned = true → AffineCell b (b.cell i) (map i))
    (T : Nat → Nat → ℝ) (hT : ∀ i < b.nCells, (b.cell i).owned = true → ∀ r < b.dim*b.nv, ∀ j < b.dim,
      ∑ q ∈ range (b.cell i).nq, ((b.cell i).pt q).w*refBasis b.dim ((b.cell i).pt q).x (r*b.dim + j)
        = T r j)
    (p0 : ℝ) (γ U : Fin b.dim → ℝ)
    (hU : ∀ i < b.nCells, (b.cell i).owned = true → toMatrix b.dim (perm i) *ᵥ γ = -U) (e y : Nat → ℝ)
    (hev : ∀ i < b.nCells, (b.cell i).owned = true → ∀ r < b.dim*b.nv,
      ((b.cell i).orient r : ℝ)*e ((b.cell i).ltog r) = U ⬝ᵥ areaOf b (map i) r)
    (hep : ∀ i < b.nCells, (b.cell i).owned = true →
      pressure b (b.cell i) e = linearPressure p0 γ (map i).centre) :
    form b perm e y = -∑ i ∈ range b.nCells, if (b.cell i).owned then
      ∑ r ∈ range (b.dim*b.nv), ((b.cell i).orient r : ℝ)*y ((b.cell i).ltog r)
        *linearPressure p0 γ ((map i).place b.dim (T r)) else 0 := by
  unfold form
  rw [← sum_neg_distrib]
  refine sum_congr rfl fun i hi => ?_
  have hi' := mem_range.1 hi
  by_cases ho : (b.cell i).owned = true
  · rw [if_pos ho, if_pos ho]
    have hout : outflow b (b.cell i) e = 0 := by
      unfold outflow
      have h1 : ∀ r ∈ range (b.dim*b.nv), ((b.cell i).orient r : ℝ)*e ((b.cell i).ltog r)
          = quadX (r / b.dim) (r % b.dim)*refConstant b (map i) U (r % b.dim) := by
        intro r hr
        rw [hev i hi' ho r (mem_range.1 hr), area_dot]
      rw [sum_congr rfl h1]
      exact sum_constant b.dim b.nv hb (refConstant b (map i) U)
    rw [hout, hep i hi' ho, energy_linear b hb (b.cell i) (map i) (haff i hi' ho) T (hT i hi' ho) _
      (hdet i hi' ho) γ U (hU i hi' ho) e y (hev i hi' ho), outflow, mul_sum, mul_zero, sub_zero,
      ← neg_add', ← sum_add_distrib, neg_inj]
    refine sum_congr rfl fun r _ => ?_
    rw [linear_place]
    ring
  · simp [ho]

/-- Without injection the right hand side is the boundary integral. -/
theorem load_boundary (b : Bdm)
    (hforce : b.hasForcing = true → ∀ i < b.nCells, ∀ q < (b.cell i).nq, ((b.cell i).pt q).force = 0)
    (y : Nat → ℝ) : load b y
      = -∑ i ∈ range b.nCells, if (b.cell i).owned then boundaryIntegral b (b.cell i) y else 0 := by
  unfold load
  rw [← sum_neg_distrib]
  refine sum_congr rfl fun i hi => ?_
  by_cases ho : (b.cell i).owned = true
  · rw [if_pos ho, if_pos ho]
    have hs : source b (b.cell i) = 0 := by
      unfold source
      split
      · rename_i hfo
        exact sum_eq_zero fun q hq => by
          rw [hforce hfo i (mem_range.1 hi) q (mem_range.1 hq), zero_mul]
      · rfl
    rw [hs, mul_zero, sub_zero]
  · simp [ho]

/-- The boundary integral of a linear pressure. -/
theorem boundary_linear (b : Bdm) (hb : Cells b) (other : Nat × Nat → Nat × Nat) (hc : Closed b other)
    (map : Nat → ElementMap) (hpos : ∀ i < b.nCells, (b.cell i).owned = true → 0 < (map i).J)
    (hconf : Conforming b map) (p0 : ℝ) (γ : Fin b.dim → ℝ) (hbd : LinearBoundary b map p0 γ)
    (y : Nat → ℝ) :
    (∑ i ∈ range b.nCells, if (b.cell i).owned then ∑ r ∈ range (b.dim*b.nv),
        ((b.cell i).orient r : ℝ)*y ((b.cell i).ltog r)
          *linearPressure p0 γ ((map i).place b.dim (thirdOf b.dim r)) else 0)
      = ∑ i ∈ range b.nCells, if (b.cell i).owned then boundaryIntegral b (b.cell i) y else 0 := by
  exact weighted_outflow b other hc y
    (fun u => linearPressure p0 γ ((map u.1).place b.dim (thirdOf b.dim u.2))) (by
      intro u hu hin
      have hu' := (hc.other_unknown u hu hin).1
      have hrow : rowOf b (other u) = rowOf b u := (hc.other_row u hu hin).1
      have hne := hc.other_ne u hu hin
      rw [linear_third, linear_third,
        linear_congr p0 γ _ _ (hconf.corner (other u) u hu' hu hne hrow),
        linear_congr p0 γ _ _ (hconf.centre (other u) u hu' hu hne hrow)]) (by
      intro i hi ho f hf h1 h2
      obtain ⟨dir, side, hat, hface, hg⟩ := hbd i hi ho f hf h1 h2
      exact ⟨dir, side, hat, face_linear b hb _ _ (map i) (hpos i hi ho).ne' dir side hat hface p0 γ
        hg y⟩)

open Classical in
/-- The coefficients of the linear pressure and its velocity. -/
def exactRows (b : Bdm) (map : Nat → ElementMap) (p0 : ℝ) (γ U : Fin b.dim → ℝ) (a : Nat) : ℝ :=
  if h : ∃ u, Unknown b u ∧ rowOf b u = a then
    (signOf b h.choose : ℝ)*(U ⬝ᵥ areaOf b (map h.choose.1) h.choose.2)
  else if h : ∃ i, i < b.nCells ∧ (b.cell i).owned = true ∧ (b.cell i).ltog (b.dim*b.nv) = a then
    linearPressure p0 γ (map h.choose).centre
  else 0

theorem exactRows_velocity (b : Bdm) (N : Nat) (hN : Numbered b N) (map : Nat → ElementMap)
    (hc : Conforming b map) (p0 : ℝ) (γ U : Fin b.dim → ℝ) (u : Nat × Nat) (hu : Unknown b u) :
    (signOf b u : ℝ)*exactRows b map p0 γ U (rowOf b u) = U ⬝ᵥ areaOf b (map u.1) u.2 := by
  have hex : ∃ v, Unknown b v ∧ rowOf b v = rowOf b u := ⟨u, hu, rfl⟩
  unfold exactRows
  rw [dif_pos hex]
  obtain ⟨hv, hrow⟩ := hex.choose_spec
  generalize hex.choose = v at hv hrow ⊢
  have hsq : (signOf b u : ℝ)*(signOf b u : ℝ) = 1 := by
    rcases hc.orient u hu with h | h <;> rw [h] <;> norm_num
  by_cases hne : u = v
  · subst hne
    rw [← mul_assoc, hsq, one_mul]
  · rw [hN.opposite u v hu hv hne hrow.symm, hc.area u v hu hv hne hrow.symm, dotProduct_neg]
    push_cast
    linear_combination (U ⬝ᵥ areaOf b (map u.1) u.2)*hsq

theorem exactRows_pressure (b : Bdm) (N : Nat) (hN : Numbered b N) (map : Nat → ElementMap) (p0 : ℝ)
    (γ U : Fin b.dim → ℝ) (i : Nat) (hi : i < b.nCells) (ho : (b.cell i).owned = true) :
    exactRows b map p0 γ U ((b.cell i).ltog (b.dim*b.nv)) = linearPressure p0 γ (map i).centre := by
  have hno : ¬ ∃ u, Unknown b u ∧ rowOf b u = (b.cell i).ltog (b.dim*b.nv) := by
    rintro ⟨u, hu, hrow⟩
    have := (hN.pressure i hi ho u.1 hu.1 hu.2.1 u.2 (by have := hu.2.2; omega) hrow).2
    have := hu.2.2
    omega
  have hex : ∃ j, j < b.nCells ∧ (b.cell j).owned = true
      ∧ (b.cell j).ltog (b.dim*b.nv) = (b.cell i).ltog (b.dim*b.nv) := ⟨i, hi, ho, rfl⟩
  unfold exactRows
  rw [dif_neg hno, dif_pos hex]
  obtain ⟨hj, hjo, hrow⟩ := hex.choose_spec
  generalize hex.choose = j at hj hjo hrow ⊢
  rw [(hN.pressure i hi ho j hj hjo _ (by omega) hrow).1]

/-- **C209** Linear pressures are exact for the BDM method with the quadrature `FULL`: on a mesh of
parallelograms or parallelepipeds, if the pressure given on the whole boundary is `p0 + γ.x`, nothing is
injected and the flow `U = -K γ` is the same in all cells, then in every solution of the assembled system
each cell has the pressure of its centre, the velocity is `U` at every point of every cell and every
velocity unknown is the flux of `U` through its part of the face. -/
theorem C209_linear_pressure_is_exact_partial (lu : (Nat → ℝ) → Nat → ℝ) (b : Bdm) (hb : Cells b)
    (perm : Nat → Nat → ℝ) (N : Nat) (hN : Numbered b N)
    (hK : ∀ i < b.nCells, (b.cell i).owned = true → (toMatrix b.dim (perm i)).PosDef)
    (hreach : ReachesBoundary b) (other : Nat × Nat → Nat × Nat) (hc : Closed b other)
    (map : Nat → ElementMap)
    (haff : ∀ i < b.nCells, (b.cell i).owned = true →
      AffineCell b (b.cell i) (map i) ∧ FullRule b (b.cell i))
    (hconf : Conforming b map) (p0 : ℝ) (γ U : Fin b.dim → ℝ)
    (hU : ∀ i < b.nCells, (b.cell i).owned = true → toMatrix b.dim (perm i) *ᵥ γ = -U)
    (hbd : LinearBoundary b map p0 γ)
    (hforce : b.hasForcing = true → ∀ i < b.nCells, ∀ q < (b.cell i).nq, ((b.cell i).pt q).force = 0)
    (s : BState) (h : bdmComputeSystem lu b (empty perm) = .ok s)
    (x : Nat → ℝ) (hx : SolvesRows N s.K s.F x) :
    ∀ i < b.nCells, (b.cell i).owned = true →
      pressure b (b.cell i) x = linearPressure p0 γ (map i).centre
      ∧ (∀ ξ : Nat → ℝ, velocity b (b.cell i) (hdivBasis b.dim ξ (map i).D (map i).J) x = U)
      ∧ ∀ r < b.dim*b.nv, ((b.cell i).orient r : ℝ)*x ((b.cell i).ltog r) = U ⬝ᵥ areaOf b (map i) r := by
  have hdet : ∀ i < b.nCells, (b.cell i).owned = true → (toMatrix b.dim (perm i)).det ≠ 0 := fun i hi ho =>
    (hK i hi ho).det_pos.ne'
  have hsym : ∀ i < b.nCells, (b.cell i).owned = true → (toMatrix b.dim (perm i)).IsSymm := by
    intro i hi ho
    have := (hK i hi ho).isHermitian
    rwa [Matrix.IsHermitian, conjTranspose_eq_transpose_of_trivial] at this
  set e := exactRows b map p0 γ U with he
  have hev : ∀ i < b.nCells, (b.cell i).owned = true → ∀ r < b.dim*b.nv,
      ((b.cell i).orient r : ℝ)*e ((b.cell i).ltog r) = U ⬝ᵥ areaOf b (map i) r := fun i hi ho r hr =>
    exactRows_velocity b N hN map hconf p0 γ U (i, r) ⟨hi, ho, hr⟩
  have hep : ∀ i < b.nCells, (b.cell i).owned = true →
      pressure b (b.cell i) e = linearPressure p0 γ (map i).centre := fun i hi ho =>
    exactRows_pressure b N hN map p0 γ U i hi ho
  have htest : ∀ y : Nat → ℝ, form b perm e y = load b y := by
    intro y
    have ht := boundary_linear b hb other hc map (fun i hi ho => (haff i hi ho).1.pos) hconf p0 γ hbd y
    rw [form_linear b hb perm hdet map (fun i hi ho => (haff i hi ho).1) (thirdOf b.dim) (fun i hi ho r hr j hj =>
      ref_moment b.dim b.nv hb _ _ _ (haff i hi ho).2.1 r j hr hj) p0 γ U hU e y hev hep,
      load_boundary b hforce y, ← ht]
  have hsol := solves_of_tests lu b perm (fun i hi ho => ⟨hdet i hi ho, hsym i hi ho⟩) N hN.below s h e htest
  have heq := (C185_exactly_one_solution lu b hb perm N hN hK (by
    intro i hi ho
    obtain ⟨ha, hr⟩ := haff i hi ho
    refine ⟨hr.2.1, fun q hq => ⟨hr.2.2 q hq, ?_, ?_⟩⟩
    · rw [ha.jacobian q hq]
      exact ha.pos
    · rw [toMatrix_congr b.dim _ _ (ha.matrix q hq), ha.det]
      exact ha.pos.ne') hreach s h s.F).2 x e hx hsol
  intro i hi ho
  have hr : ∀ r < b.dim*b.nv, ((b.cell i).orient r : ℝ)*x ((b.cell i).ltog r) = U ⬝ᵥ areaOf b (map i) r := by
    intro r hr
    rw [heq _ (hN.below i hi ho r (by omega))]
    exact hev i hi ho r hr
  refine ⟨?_, fun ξ => ?_, hr⟩
  · rw [← hep i hi ho]
    exact heq _ (hN.below i hi ho _ (by omega))
  · have ha := (haff i hi ho).1
    exact velocity_constant b hb (b.cell i) (map i) (by rw [ha.det]; exact ha.pos.ne') ha.pos.ne' U x hr ξ

/-- **C209 violated** with the quadrature `LUMPED`, which takes the corners of the cells but not those of
the boundary faces: on no mesh of parallelograms or parallelepipeds is a linear pressure exact that
differs between a corner of a boundary face and the centre of the face. -/
theorem C209_lumped_violated (lu : (Nat → ℝ) → Nat → ℝ) (b : Bdm) (hb : Cells b)
    (perm : Nat → Nat → ℝ) (N : Nat) (hN : Numbered b N)
    (hK : ∀ i < b.nCells, (b.cell i).owned = true → (toMatrix b.dim (perm i)).PosDef)
    (other : Nat × Nat → Nat × Nat) (hc : Closed b other) (map : Nat → ElementMap)
    (haff : ∀ i < b.nCells, (b.cell i).owned = true →
      AffineCell b (b.cell i) (map i) ∧ LumpedRule b (b.cell i))
    (hconf : Conforming b map) (p0 : ℝ) (γ U : Fin b.dim → ℝ)
    (hU : ∀ i < b.nCells, (b.cell i).owned = true → toMatrix b.dim (perm i) *ᵥ γ = -U)
    (hbd : LinearBoundary b map p0 γ)
    (hforce : b.hasForcing = true → ∀ i < b.nCells, ∀ q < (b.cell i).nq, ((b.cell i).pt q).force = 0)
    (u : Nat × Nat) (hu : Unknown b u) (hown : ∀ v, Unknown b v → rowOf b v = rowOf b u → v = u)
    (hne : linearPressure p0 γ ((map u.1).place b.dim (cornerOf b.dim u.2))
      ≠ linearPressure p0 γ ((map u.1).place b.dim (faceCentreOf b.dim u.2)))
    (s : BState) (h : bdmComputeSystem lu b (empty perm) = .ok s)
    (x : Nat → ℝ) (hx : SolvesRows N s.K s.F x) :
    ¬ ∀ i < b.nCells, (b.cell i).owned = true →
      pressure b (b.cell i) x = linearPressure p0 γ (map i).centre
      ∧ ∀ ξ : Nat → ℝ, velocity b (b.cell i) (hdivBasis b.dim ξ (map i).D (map i).J) x = U := by
  intro hex
  have hdet : ∀ i < b.nCells, (b.cell i).owned = true → (toMatrix b.dim (perm i)).det ≠ 0 := fun i hi ho =>
    (hK i hi ho).det_pos.ne'
  have hsym : ∀ i < b.nCells, (b.cell i).owned = true → (toMatrix b.dim (perm i)).IsSymm := by
    intro i hi ho
    have := (hK i hi ho).isHermitian
    rwa [Matrix.IsHermitian, conjTranspose_eq_transpose_of_trivial] at this
  have hev : ∀ i < b.nCells, (b.cell i).owned = true → ∀ r < b.dim*b.nv,
      ((b.cell i).orient r : ℝ)*x ((b.cell i).ltog r) = U ⬝ᵥ areaOf b (map i) r := fun i hi ho => by
    have ha := (haff i hi ho).1
    exact constant_velocity b hb (b.cell i) (lumped_grid b hb _ (haff i hi ho).2) (map i)
      (by rw [ha.det]; exact ha.pos.ne') ha.pos.ne' U x (hex i hi ho).2
  -- test with the velocity unknown at the boundary
  set y := unit (rowOf b u) with hy
  have hform := form_linear b hb perm hdet map (fun i hi ho => (haff i hi ho).1) (faceCentreOf b.dim)
    (fun i hi ho r hr j hj => lumped_moment b hb _ (haff i hi ho).2 r j hr hj) p0 γ U hU x y hev
    (fun i hi ho => (hex i hi ho).1)
  have hload := load_boundary b hforce y
  rw [← boundary_linear b hb other hc map (fun i hi ho => (haff i hi ho).1.pos) hconf p0 γ hbd y] at hload
  have hpick : ∀ P : Nat × Nat → ℝ, (∑ i ∈ range b.nCells, if (b.cell i).owned then
      ∑ r ∈ range (b.dim*b.nv), ((b.cell i).orient r : ℝ)*y ((b.cell i).ltog r)*P (i, r) else 0)
      = (signOf b u : ℝ)*P u := by
    intro P
    have h0 : ∀ i r, Unknown b (i, r) → (i, r) ≠ u → y ((b.cell i).ltog r) = 0 := fun i r hv hne =>
      if_neg fun he => hne (hown (i, r) hv he)
    rw [sum_eq_single u.1, if_pos hu.2.1, sum_eq_single u.2]
    · have : y ((b.cell u.1).ltog u.2) = 1 := if_pos rfl
      rw [this, mul_one]
      rfl
    · intro r hr hne
      rw [h0 u.1 r ⟨hu.1, hu.2.1, mem_range.1 hr⟩ (fun he => hne (congrArg Prod.snd he))]
      ring
    · exact fun hn => absurd (mem_range.2 hu.2.2) hn
    · intro i hi hne
      split
      · rename_i ho
        refine sum_eq_zero fun r hr => ?_
        rw [h0 i r ⟨mem_range.1 hi, ho, mem_range.1 hr⟩ (fun he => hne (congrArg Prod.fst he))]
        ring
      · rfl
    · exact fun hn => absurd (mem_range.2 hu.1) hn
  rw [hpick (fun v => linearPressure p0 γ ((map v.1).place b.dim (faceCentreOf b.dim v.2)))] at hform
  rw [hpick (fun v => linearPressure p0 γ ((map v.1).place b.dim (thirdOf b.dim v.2)))] at hload
  -- the equation of this unknown
  have hsys := C117_system_is_mixed_problem lu b perm (fun i hi ho => ⟨hdet i hi ho, hsym i hi ho⟩) N
    hN.below s h x y
  have heq : form b perm x y = load b y := by
    rw [← hsys.1, ← hsys.2]
    refine sum_congr rfl fun a ha => ?_
    rw [← hx a (mem_range.1 ha), mul_sum]
    exact sum_congr rfl fun a' _ => by ring
  rw [hform, hload, neg_inj] at heq
  have hs : (signOf b u : ℝ) ≠ 0 := by
    have := hN.directed u hu
    exact_mod_cast this
  have h1 := mul_left_cancel₀ hs heq
  rw [linear_third] at h1
  apply hne
  linarith

end

end TDy.Fe.Props
