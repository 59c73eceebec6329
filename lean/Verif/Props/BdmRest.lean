import Verif.Props.Bdm
import Verif.Props.FeBasis

/-!
# C118: a uniform pressure is at rest
-/

namespace TDy.Fe.Props

open TDy.Fe TDy.Fe.Spec TDy.Fe.Proofs Finset Matrix

noncomputable section

/-- The basis functions before the Piola transformation. -/
def refBasis (dim : Nat) (x : Nat → ℝ) : Nat → ℝ :=
  if dim = 2 then quadRef (x 0) (x 1) else hexRef (x 0) (x 1) (x 2)

theorem piola_eq (u DF : Nat → ℝ) (J : ℝ) (dim i : Nat) :
    piola u DF J dim i = (∑ j ∈ range dim, DF (i*dim + j)*u j)/J := by
  unfold piola
  rw [forN_adds (fun x : ℝ => x) (fun j => DF (i*dim + j)*u j) _ dim 0 (fun _ _ _ => rfl), zero_add]

theorem basis_eq (dim : Nat) (hd : dim = 2 ∨ dim = 3) (x DF : Nat → ℝ) (J : ℝ) (r k : Nat) (hk : k < dim) :
    hdivBasis dim x DF J (r*dim + k)
      = (∑ m ∈ range dim, DF (k*dim + m)*refBasis dim x (r*dim + m))/J := by
  rcases hd with rfl | rfl
  · have h1 : (r*2 + k)/2 = r := by omega
    have h2 : (r*2 + k)%2 = k := by omega
    simp only [hdivBasis, if_true, hdivBasisQuad, h1, h2, refBasis, piola_eq, Nat.mul_comm 2 r]
  · have h1 : (r*3 + k)/3 = r := by omega
    have h2 : (r*3 + k)%3 = k := by omega
    have h3 : ¬ (3 = 2) := by decide
    simp only [hdivBasis, if_neg h3, hdivBasisHex, h1, h2, refBasis, piola_eq, Nat.mul_comm 3 r]

/-- Corner and direction of a velocity unknown of a quadrilateral. -/
theorem split2 : ∀ r < 8, ∃ (v : Corner 2) (d : Fin 2), r = number2 v*2 + d
    ∧ ∀ e : Fin 2, (r/2/2^e.1)%2 = (v e).toNat := by
  intro r hr
  refine ⟨fun e => decide ((r/2/2^e.1)%2 = 1), ⟨r%2, by omega⟩, ?_, ?_⟩
  · interval_cases r <;> rfl
  · intro e
    interval_cases r <;> fin_cases e <;> rfl

/-- Corner and direction of a velocity unknown of a hexahedron. -/
theorem split3 : ∀ r < 24, ∃ (v : Corner 3) (d : Fin 3), r = number3 v*3 + d
    ∧ ∀ e : Fin 3, (r/3/2^e.1)%2 = (v e).toNat := by
  intro r hr
  refine ⟨fun e => decide ((r/3/2^e.1)%2 = 1), ⟨r%3, by omega⟩, ?_, ?_⟩
  · interval_cases r <;> rfl
  · intro e
    interval_cases r <;> fin_cases e <;> rfl

theorem sum_lin2 (w y : Nat → ℝ) (nq : Nat) (h0 : ∑ q ∈ range nq, w q = 2)
    (h1 : ∑ q ∈ range nq, w q*y q = 0) (a : ℝ) : ∑ q ∈ range nq, w q*((1 + a*y q)/2) = 1 := by
  have : ∀ q ∈ range nq, w q*((1 + a*y q)/2) = w q/2 + (w q*y q)*(a/2) := fun q _ => by ring
  rw [sum_congr rfl this, sum_add_distrib, ← sum_div, ← sum_mul, h0, h1]
  norm_num

theorem sum_lin3 (w y z : Nat → ℝ) (nq : Nat) (h0 : ∑ q ∈ range nq, w q = 4)
    (h1 : ∑ q ∈ range nq, w q*y q = 0) (h2 : ∑ q ∈ range nq, w q*z q = 0)
    (h3 : ∑ q ∈ range nq, w q*(y q*z q) = 0) (a b : ℝ) :
    ∑ q ∈ range nq, w q*(((1 + a*y q)/2)*((1 + b*z q)/2)) = 1 := by
  have : ∀ q ∈ range nq, w q*(((1 + a*y q)/2)*((1 + b*z q)/2))
      = w q/4 + (w q*y q)*(a/4) + (w q*z q)*(b/4) + (w q*(y q*z q))*(a*b/4) := fun q _ => by ring
  rw [sum_congr rfl this, sum_add_distrib, sum_add_distrib, sum_add_distrib, ← sum_div, ← sum_mul,
    ← sum_mul, ← sum_mul, h0, h1, h2, h3]
  norm_num

/-- The flux of basis function `r` through a side of a quadrilateral. -/
theorem flux_ref2 (w : Nat → ℝ) (y : Nat → Nat → ℝ) (nq : Nat) (h0 : ∑ q ∈ range nq, w q = 2)
    (h1 : ∑ q ∈ range nq, w q*y q 0 = 0) (r : Nat) (hr : r < 8) (dir : Nat) (hdir : dir < 2)
    (s : Bool) :
    ∑ q ∈ range nq, w q*(sgn s*refBasis 2 (singlePoint dir s.toNat (y q)) (r*2 + dir))
      = if r % 2 = dir ∧ (r/2/2^dir)%2 = s.toNat then 1 else 0 := by
  obtain ⟨v, d, rfl, hv⟩ := split2 r hr
  have hval : ∀ q, sgn s*refBasis 2 (singlePoint dir s.toNat (y q)) ((number2 v*2 + d)*2 + dir)
      = if (⟨dir, hdir⟩ : Fin 2) = d ∧ s = v d then
        ∏ k ∈ univ.erase d, (1 + sgn (v k)*singlePoint dir s.toNat (y q) k)/2 else 0 := by
    intro q
    rw [← quad_nodal v d ⟨dir, hdir⟩ s (fun e => singlePoint dir s.toNat (y q) e)]
    · rw [Nat.mul_comm (number2 v*2 + d) 2]
      rfl
    · simp only [singlePoint, if_true]
      cases s <;> norm_num [sgn]
  simp only [hval]
  have hc : ((number2 v*2 + d) % 2 = dir ∧ ((number2 v*2 + d)/2/2^dir)%2 = s.toNat)
      ↔ ((⟨dir, hdir⟩ : Fin 2) = d ∧ s = v d) := by
    have h1 : (number2 v*2 + d) % 2 = d := by have := d.2; omega
    rw [h1, hv ⟨dir, hdir⟩]
    constructor
    · rintro ⟨rfl, h⟩
      refine ⟨rfl, ?_⟩
      revert h
      cases s <;> cases v ⟨d.1, hdir⟩ <;> simp
    · rintro ⟨rfl, h⟩
      exact ⟨rfl, by rw [h]⟩
  by_cases hcc : (⟨dir, hdir⟩ : Fin 2) = d ∧ s = v d
  · simp only [if_pos hcc, if_pos (hc.2 hcc)]
    obtain ⟨rfl, _⟩ := hcc
    interval_cases dir
    · simp only [show univ.erase (⟨0, hdir⟩ : Fin 2) = {1} by ext k; fin_cases k <;> simp, prod_singleton]
      exact sum_lin2 w (fun q => y q 0) nq h0 h1 (sgn (v 1))
    · simp only [show univ.erase (⟨1, hdir⟩ : Fin 2) = {0} by ext k; fin_cases k <;> simp, prod_singleton]
      exact sum_lin2 w (fun q => y q 0) nq h0 h1 (sgn (v 0))
  · simp only [if_neg hcc, if_neg (fun h => hcc (hc.1 h)), mul_zero, sum_const_zero]

/-- The flux of basis function `r` through a side of a hexahedron. -/
theorem flux_ref3 (w : Nat → ℝ) (y : Nat → Nat → ℝ) (nq : Nat) (h0 : ∑ q ∈ range nq, w q = 4)
    (h1 : ∑ q ∈ range nq, w q*y q 0 = 0) (h2 : ∑ q ∈ range nq, w q*y q 1 = 0)
    (h3 : ∑ q ∈ range nq, w q*(y q 0*y q 1) = 0) (r : Nat) (hr : r < 24) (dir : Nat) (hdir : dir < 3)
    (s : Bool) :
    ∑ q ∈ range nq, w q*(sgn s*refBasis 3 (singlePoint dir s.toNat (y q)) (r*3 + dir))
      = if r % 3 = dir ∧ (r/3/2^dir)%2 = s.toNat then 1 else 0 := by
  obtain ⟨v, d, rfl, hv⟩ := split3 r hr
  have hval : ∀ q, sgn s*refBasis 3 (singlePoint dir s.toNat (y q)) ((number3 v*3 + d)*3 + dir)
      = if (⟨dir, hdir⟩ : Fin 3) = d ∧ s = v d then
        ∏ k ∈ univ.erase d, (1 + sgn (v k)*singlePoint dir s.toNat (y q) k)/2 else 0 := by
    intro q
    rw [← hex_nodal v d ⟨dir, hdir⟩ s (fun e => singlePoint dir s.toNat (y q) e)]
    · rw [Nat.mul_comm (number3 v*3 + d) 3]
      rfl
    · simp only [singlePoint, if_true]
      cases s <;> norm_num [sgn]
  simp only [hval]
  have hc : ((number3 v*3 + d) % 3 = dir ∧ ((number3 v*3 + d)/3/2^dir)%2 = s.toNat)
      ↔ ((⟨dir, hdir⟩ : Fin 3) = d ∧ s = v d) := by
    have h1 : (number3 v*3 + d) % 3 = d := by have := d.2; omega
    rw [h1, hv ⟨dir, hdir⟩]
    constructor
    · rintro ⟨rfl, h⟩
      refine ⟨rfl, ?_⟩
      revert h
      cases s <;> cases v ⟨d.1, hdir⟩ <;> simp
    · rintro ⟨rfl, h⟩
      exact ⟨rfl, by rw [h]⟩
  by_cases hcc : (⟨dir, hdir⟩ : Fin 3) = d ∧ s = v d
  · simp only [if_pos hcc, if_pos (hc.2 hcc)]
    obtain ⟨rfl, _⟩ := hcc
    interval_cases dir
    · simp only [show univ.erase (⟨0, hdir⟩ : Fin 3) = {1, 2} by ext k; fin_cases k <;> simp,
        prod_pair (show (1 : Fin 3) ≠ 2 by decide)]
      exact sum_lin3 w (fun q => y q 0) (fun q => y q 1) nq h0 h1 h2 h3 (sgn (v 1)) (sgn (v 2))
    · simp only [show univ.erase (⟨1, hdir⟩ : Fin 3) = {0, 2} by ext k; fin_cases k <;> simp,
        prod_pair (show (0 : Fin 3) ≠ 2 by decide)]
      exact sum_lin3 w (fun q => y q 0) (fun q => y q 1) nq h0 h1 h2 h3 (sgn (v 0)) (sgn (v 2))
    · simp only [show univ.erase (⟨2, hdir⟩ : Fin 3) = {0, 1} by ext k; fin_cases k <;> simp,
        prod_pair (show (0 : Fin 3) ≠ 1 by decide)]
      exact sum_lin3 w (fun q => y q 0) (fun q => y q 1) nq h0 h1 h2 h3 (sgn (v 0)) (sgn (v 1))
  · simp only [if_neg hcc, if_neg (fun h => hcc (hc.1 h)), mul_zero, sum_const_zero]

/-- Cells are quadrilaterals in the plane or hexahedra in space. -/
def Cells (b : Bdm) : Prop := b.dim = 2 ∧ b.nv = 4 ∨ b.dim = 3 ∧ b.nv = 8

open Classical in
/-- `<g, v.n>` over a face, point by point. -/
theorem face_points (b : Bdm) (hb : Cells b) (c : BCell) (f : BFace) (dir : Nat) (s : Bool)
    (hf : FaceAt b c f dir s.toNat) (hdir : dir < b.dim) (hreg : ∀ q < f.nq, (f.pt q).J ≠ 0)
    (hnormal : ∀ q < f.nq, ∀ m < b.dim,
      ∑ k ∈ range b.dim, (f.pt q).DF (k*b.dim + m)*((if f.side < 0 then -1 else 1)*f.normal k)*(f.pt q).fJ
        = (f.pt q).J*(if m = dir then (if s.toNat = 0 then -1 else 1) else 0)) (y : Nat → ℝ) :
    faceIntegral b c f y = ∑ r ∈ range (b.dim*b.nv), (c.orient r : ℝ)*y (c.ltog r)*∑ q ∈ range f.nq,
      (f.pt q).w*((f.pt q).g*(sgn s*refBasis b.dim (singlePoint dir s.toNat (f.pt q).y) (r*b.dim + dir))) := by
  have hd : b.dim = 2 ∨ b.dim = 3 := hb.imp (·.1) (·.1)
  unfold faceIntegral
  rw [show faceDirSide b.dim b.nv c.emap f.id = some (dir, s.toNat) from hf]
  dsimp only
  have hpt : ∀ q ∈ range f.nq, (f.pt q).g*(velocity b c (hdivBasis b.dim (singlePoint dir s.toNat
      (f.pt q).y) (f.pt q).DF (f.pt q).J) y ⬝ᵥ fun k => (if f.side < 0 then -1 else 1)*f.normal k)
      *((f.pt q).w*(f.pt q).fJ)
      = (f.pt q).g*∑ r ∈ range (b.dim*b.nv), (c.orient r : ℝ)*y (c.ltog r)
        *((f.pt q).w*(sgn s*refBasis b.dim (singlePoint dir s.toNat (f.pt q).y) (r*b.dim + dir))) := by
    intro q hq
    have hq' := mem_range.1 hq
    set P := f.pt q with hP
    have hJ := hreg q hq'
    have hn := hnormal q hq'
    rw [← hP] at hJ hn
    -- the normal component of one basis function
    have hone : ∀ r, ∑ k ∈ range b.dim, hdivBasis b.dim (singlePoint dir s.toNat P.y) P.DF P.J
        (r*b.dim + k)*((if f.side < 0 then -1 else 1)*f.normal k)*P.fJ
        = sgn s*refBasis b.dim (singlePoint dir s.toNat P.y) (r*b.dim + dir) := by
      intro r
      calc _ = ∑ k ∈ range b.dim, ∑ m ∈ range b.dim, refBasis b.dim (singlePoint dir s.toNat P.y)
            (r*b.dim + m)/P.J*(P.DF (k*b.dim + m)*((if f.side < 0 then -1 else 1)*f.normal k)*P.fJ) := by
            refine sum_congr rfl fun k hk => ?_
            rw [basis_eq b.dim hd _ _ _ _ _ (mem_range.1 hk), sum_div, sum_mul, sum_mul]
            exact sum_congr rfl fun m _ => by ring
        _ = ∑ m ∈ range b.dim, refBasis b.dim (singlePoint dir s.toNat P.y) (r*b.dim + m)/P.J
            *∑ k ∈ range b.dim, P.DF (k*b.dim + m)*((if f.side < 0 then -1 else 1)*f.normal k)*P.fJ := by
            rw [sum_comm]
            exact sum_congr rfl fun m _ => (mul_sum _ _ _).symm
        _ = ∑ m ∈ range b.dim, if m = dir then
            sgn s*refBasis b.dim (singlePoint dir s.toNat P.y) (r*b.dim + dir) else 0 := by
            refine sum_congr rfl fun m hm => ?_
            rw [hn m (mem_range.1 hm)]
            by_cases hmd : m = dir
            · subst hmd
              rw [if_pos rfl, if_pos rfl]
              have : (if s.toNat = 0 then (-1 : ℝ) else 1) = sgn s := by cases s <;> simp [sgn]
              rw [this]
              field_simp
            · rw [if_neg hmd, if_neg hmd]
              ring
        _ = _ := by
            rw [sum_ite_eq' (range b.dim) dir, if_pos (mem_range.2 hdir)]
    have hv : (velocity b c (hdivBasis b.dim (singlePoint dir s.toNat P.y) P.DF P.J) y ⬝ᵥ
        fun k => (if f.side < 0 then -1 else 1)*f.normal k)
        = ∑ k ∈ range b.dim, (∑ r ∈ range (b.dim*b.nv), (c.orient r : ℝ)*y (c.ltog r)
          *hdivBasis b.dim (singlePoint dir s.toNat P.y) P.DF P.J (r*b.dim + k))
          *((if f.side < 0 then -1 else 1)*f.normal k) := by
      rw [← dot_eq]
      rfl
    rw [hv, mul_assoc]
    refine congrArg _ ?_
    simp only [← hone, mul_sum, sum_mul]
    rw [sum_comm]
    exact sum_congr rfl fun r _ => sum_congr rfl fun k _ => by ring
  rw [sum_congr rfl hpt]
  simp only [mul_sum]
  rw [sum_comm]
  exact sum_congr rfl fun r _ => sum_congr rfl fun q _ => by ring

open Classical in
/-- `<g, v.n>` over a face with the pressure `p0`. -/
theorem face_uniform (b : Bdm) (hb : Cells b) (c : BCell) (f : BFace) (dir side : Nat)
    (hf : FaceAt b c f dir side) (hside : side < 2) (hg : FaceGeometry b f dir side) (p0 : ℝ)
    (hp : ∀ q < f.nq, (f.pt q).g = p0) (y : Nat → ℝ) :
    faceIntegral b c f y = p0*∑ r ∈ range (b.dim*b.nv),
      (c.orient r : ℝ)*y (c.ltog r)*(if OnSide b r dir side then 1 else 0) := by
  obtain ⟨s, rfl⟩ : ∃ s : Bool, side = s.toNat := by
    interval_cases side
    · exact ⟨false, rfl⟩
    · exact ⟨true, rfl⟩
  have hflux : ∀ r ∈ range (b.dim*b.nv), (if OnSide b r dir s.toNat then (1 : ℝ) else 0)
      = ∑ q ∈ range f.nq, (f.pt q).w*(sgn s*refBasis b.dim (singlePoint dir s.toNat (f.pt q).y)
        (r*b.dim + dir)) := by
    intro r hr
    have hr' := mem_range.1 hr
    have hdir := hg.dir_lt
    rcases hb with ⟨h2, hv⟩ | ⟨h3, hv⟩
    · rw [h2, hv] at hr'
      have hw := hg.weights
      have hl := hg.linear 0 (by omega)
      simp only [h2] at hw hl hdir ⊢
      rw [flux_ref2 (fun q => (f.pt q).w) (fun q => (f.pt q).y) f.nq (by rw [hw]; norm_num) hl r hr' dir
        hdir s]
      unfold OnSide
      rw [h2]
      congr
    · rw [h3, hv] at hr'
      have hw := hg.weights
      have hl := hg.linear 0 (by omega)
      have hl1 := hg.linear 1 (by omega)
      have hl2 := hg.product h3
      simp only [h3] at hw hl hdir ⊢
      rw [flux_ref3 (fun q => (f.pt q).w) (fun q => (f.pt q).y) f.nq (by rw [hw]; norm_num) hl hl1 hl2 r
        hr' dir hdir s]
      unfold OnSide
      rw [h3]
      congr
  rw [face_points b hb c f dir s hf hg.dir_lt hg.regular hg.normal y, mul_sum]
  refine sum_congr rfl fun r hr => ?_
  rw [hflux r hr, mul_left_comm, mul_sum (a := p0)]
  refine congrArg _ (sum_congr rfl fun q hq => ?_)
  rw [hp q (mem_range.1 hq)]
  ring

open Classical in
/-- The outflow of all cells, each with a weight that the two sides of a face have in common, is the
outflow through the boundary. -/
theorem weighted_outflow (b : Bdm) (other : Nat × Nat → Nat × Nat) (hc : Closed b other) (y : Nat → ℝ)
    (P : Nat × Nat → ℝ)
    (hP : ∀ u, Unknown b u → (∀ i, ¬ OnBoundary b (b.cell u.1) i u.2) → P (other u) = P u)
    (hg : ∀ i < b.nCells, (b.cell i).owned = true → ∀ f < (b.cell i).nFaces,
      ((b.cell i).face f).isbc = true → b.hasPressure = true →
      ∃ dir side, FaceAt b (b.cell i) ((b.cell i).face f) dir side
        ∧ faceIntegral b (b.cell i) ((b.cell i).face f) y = ∑ r ∈ range (b.dim*b.nv),
          ((b.cell i).orient r : ℝ)*y ((b.cell i).ltog r)*(if OnSide b r dir side then P (i, r) else 0)) :
    (∑ i ∈ range b.nCells, if (b.cell i).owned then ∑ r ∈ range (b.dim*b.nv),
        ((b.cell i).orient r : ℝ)*y ((b.cell i).ltog r)*P (i, r) else 0)
      = ∑ i ∈ range b.nCells, if (b.cell i).owned then boundaryIntegral b (b.cell i) y else 0 := by
  set n := b.dim*b.nv with hn
  set f : Nat × Nat → ℝ := fun u => ((b.cell u.1).orient u.2 : ℝ)*y ((b.cell u.1).ltog u.2)*P u with hf
  set U : Finset (Nat × Nat) := (range b.nCells ×ˢ range n).filter fun u => (b.cell u.1).owned = true
    with hU
  have hmem : ∀ u, u ∈ U ↔ Unknown b u := by
    intro u
    simp only [hU, mem_filter, mem_product, mem_range, Unknown, ← hn]
    tauto
  -- the boundary integral of a cell
  have hbnd : ∀ i < b.nCells, (b.cell i).owned = true → boundaryIntegral b (b.cell i) y
      = ∑ r ∈ range n, if ∃ j, OnBoundary b (b.cell i) j r then f (i, r) else 0 := by
    intro i hi ho
    unfold boundaryIntegral
    have h1 : ∀ j ∈ range (b.cell i).nFaces, (if ((b.cell i).face j).isbc && b.hasPressure then
        faceIntegral b (b.cell i) ((b.cell i).face j) y else 0)
        = ∑ r ∈ range n, if OnBoundary b (b.cell i) j r then f (i, r) else 0 := by
      intro j hj
      by_cases hbc : (((b.cell i).face j).isbc && b.hasPressure) = true
      · rw [if_pos hbc]
        rw [Bool.and_eq_true] at hbc
        obtain ⟨dir, side, hat, hface⟩ := hg i hi ho j (mem_range.1 hj) hbc.1 hbc.2
        rw [hface]
        refine sum_congr rfl fun r _ => ?_
        have hiff : OnBoundary b (b.cell i) j r ↔ OnSide b r dir side := by
          constructor
          · rintro ⟨_, _, _, dir', side', hat', hon⟩
            have : (dir', side') = (dir, side) := Option.some.inj (hat'.symm.trans hat)
            rw [Prod.mk.injEq] at this
            rw [← this.1, ← this.2]
            exact hon
          · intro hon
            exact ⟨mem_range.1 hj, hbc.1, hbc.2, dir, side, hat, hon⟩
        by_cases hon : OnSide b r dir side
        · rw [if_pos hon, if_pos (hiff.2 hon)]
        · rw [if_neg hon, if_neg (fun h => hon (hiff.1 h)), mul_zero]
      · rw [if_neg hbc]
        symm
        refine sum_eq_zero fun r _ => ?_
        rw [if_neg]
        rintro ⟨_, h1, h2, _⟩
        exact hbc (by rw [h1, h2]; rfl)
    rw [sum_congr rfl h1, sum_comm]
    refine sum_congr rfl fun r hr => ?_
    by_cases hex : ∃ j, OnBoundary b (b.cell i) j r
    · rw [if_pos hex]
      obtain ⟨j, hj⟩ := hex
      rw [sum_eq_single j, if_pos hj]
      · intro j' _ hne
        refine if_neg fun h => hne ?_
        exact hc.once (i, r) ⟨hi, ho, mem_range.1 hr⟩ j' j h hj
      · intro hj'
        exact absurd (mem_range.2 hj.1) hj'
    · rw [if_neg hex]
      exact sum_eq_zero fun j _ => if_neg fun h => hex ⟨j, h⟩
  -- both sides as sums over the unknowns
  have hL : (∑ i ∈ range b.nCells, if (b.cell i).owned then ∑ r ∈ range n,
        ((b.cell i).orient r : ℝ)*y ((b.cell i).ltog r)*P (i, r) else 0) = ∑ u ∈ U, f u := by
    rw [hU, sum_filter, sum_product]
    refine sum_congr rfl fun i _ => ?_
    dsimp only
    split
    · rfl
    · simp
  have hR : (∑ i ∈ range b.nCells, if (b.cell i).owned then boundaryIntegral b (b.cell i) y else 0)
      = ∑ u ∈ U, if ∃ j, OnBoundary b (b.cell u.1) j u.2 then f u else 0 := by
    rw [hU, sum_filter, sum_product]
    refine sum_congr rfl fun i hi => ?_
    dsimp only
    by_cases ho : (b.cell i).owned = true
    · simp only [if_pos ho]
      exact hbnd i (mem_range.1 hi) ho
    · simp [ho]
  rw [hL, hR, ← sub_eq_zero, ← sum_sub_distrib]
  have hint : ∀ u ∈ U, f u - (if ∃ j, OnBoundary b (b.cell u.1) j u.2 then f u else 0)
      = if (∀ j, ¬ OnBoundary b (b.cell u.1) j u.2) then f u else 0 := by
    intro u _
    by_cases hex : ∃ j, OnBoundary b (b.cell u.1) j u.2
    · rw [if_pos hex, if_neg (fun h => hex.elim h), sub_self]
    · rw [if_neg hex, if_pos (fun j h => hex ⟨j, h⟩), sub_zero]
  rw [sum_congr rfl hint, ← sum_filter]
  refine sum_involution (fun u _ => other u) ?_ ?_ ?_ ?_
  · intro u hu
    rw [mem_filter, hmem] at hu
    obtain ⟨h1, h2⟩ := hc.other_row u hu.1 hu.2
    simp only [hf]
    rw [h1, h2, hP u hu.1 hu.2]
    push_cast
    ring
  · intro u hu _
    rw [mem_filter, hmem] at hu
    exact hc.other_ne u hu.1 hu.2
  · intro u hu
    rw [mem_filter, hmem] at hu
    have := hc.other_unknown u hu.1 hu.2
    rw [mem_filter, hmem]
    exact this
  · intro u hu
    rw [mem_filter, hmem] at hu
    exact hc.other_other u hu.1 hu.2

open Classical in
/-- The outflow of all cells is the outflow through the boundary. -/
theorem total_outflow (b : Bdm) (hb : Cells b) (other : Nat × Nat → Nat × Nat) (hc : Closed b other)
    (p0 : ℝ)
    (hg : ∀ i < b.nCells, (b.cell i).owned = true → ∀ f < (b.cell i).nFaces,
      ((b.cell i).face f).isbc = true → b.hasPressure = true →
      (∃ dir side, FaceAt b (b.cell i) ((b.cell i).face f) dir side ∧ side < 2
        ∧ FaceGeometry b ((b.cell i).face f) dir side)
      ∧ ∀ q < ((b.cell i).face f).nq, (((b.cell i).face f).pt q).g = p0) (y : Nat → ℝ) :
    (∑ i ∈ range b.nCells, if (b.cell i).owned then p0*outflow b (b.cell i) y else 0)
      = ∑ i ∈ range b.nCells, if (b.cell i).owned then boundaryIntegral b (b.cell i) y else 0 := by
  have h := weighted_outflow b other hc y (fun _ => p0) (fun _ _ _ => rfl) (by
    intro i hi ho f hf h1 h2
    obtain ⟨⟨dir, side, hat, hs, hgeo⟩, hpq⟩ := hg i hi ho f hf h1 h2
    refine ⟨dir, side, hat, ?_⟩
    rw [face_uniform b hb _ _ dir side hat hs hgeo p0 hpq y, mul_sum]
    refine sum_congr rfl fun r _ => ?_
    split <;> ring)
  rw [← h]
  refine sum_congr rfl fun i _ => ?_
  rw [outflow, mul_sum]
  split
  · exact sum_congr rfl fun r _ => by ring
  · rfl

/-- **C118** A uniform pressure is at rest: if the pressure given on the whole boundary is `p0` and
nothing is injected, velocity zero and pressure `p0` in every cell solve the assembled system. -/
theorem C118_uniform_pressure_at_rest (lu : (Nat → ℝ) → Nat → ℝ) (b : Bdm) (hb : Cells b)
    (perm : Nat → Nat → ℝ)
    (hK : ∀ i < b.nCells, (b.cell i).owned = true →
      (toMatrix b.dim (perm i)).det ≠ 0 ∧ (toMatrix b.dim (perm i)).IsSymm)
    (N : Nat) (hN : RowsBelow b N) (other : Nat × Nat → Nat × Nat) (hc : Closed b other) (p0 : ℝ)
    (hg : ∀ i < b.nCells, (b.cell i).owned = true → ∀ f < (b.cell i).nFaces,
      ((b.cell i).face f).isbc = true → b.hasPressure = true →
      (∃ dir side, FaceAt b (b.cell i) ((b.cell i).face f) dir side ∧ side < 2
        ∧ FaceGeometry b ((b.cell i).face f) dir side)
      ∧ ∀ q < ((b.cell i).face f).nq, (((b.cell i).face f).pt q).g = p0)
    (hforce : b.hasForcing = true → ∀ i < b.nCells, ∀ q < (b.cell i).nq, ((b.cell i).pt q).force = 0)
    (s : BState) (h : bdmComputeSystem lu b (empty perm) = .ok s) (x : Nat → ℝ)
    (hx : ∀ i < b.nCells, (b.cell i).owned = true →
      (∀ r < b.dim*b.nv, x ((b.cell i).ltog r) = 0) ∧ x ((b.cell i).ltog (b.dim*b.nv)) = p0) :
    ∀ a < N, ∑ a' ∈ range N, s.K a a'*x a' = s.F a := by
  -- tested with any coefficients
  have htest : ∀ y : Nat → ℝ, form b perm x y = load b y := by
    intro y
    have ht := total_outflow b hb other hc p0 hg y
    have hform : form b perm x y
        = -∑ i ∈ range b.nCells, if (b.cell i).owned then p0*outflow b (b.cell i) y else 0 := by
      unfold form
      rw [← sum_neg_distrib]
      refine sum_congr rfl fun i hi => ?_
      by_cases ho : (b.cell i).owned = true
      · rw [if_pos ho, if_pos ho]
        obtain ⟨h0, hp⟩ := hx i (mem_range.1 hi) ho
        have hv : ∀ basis, velocity b (b.cell i) basis x = 0 := by
          intro basis
          funext k
          exact sum_eq_zero fun r hr => by rw [h0 r (mem_range.1 hr)]; ring
        have ho0 : outflow b (b.cell i) x = 0 :=
          sum_eq_zero fun r hr => by rw [h0 r (mem_range.1 hr)]; ring
        have he : energy b (b.cell i) (toMatrix b.dim (perm i)) x y = 0 :=
          sum_eq_zero fun q _ => by rw [hv, mulVec_zero, zero_dotProduct, zero_mul]
        rw [he, ho0, pressure, hp]
        ring
      · simp [ho]
    have hload : load b y
        = -∑ i ∈ range b.nCells, if (b.cell i).owned then boundaryIntegral b (b.cell i) y else 0 := by
      unfold load
      rw [← sum_neg_distrib]
      refine sum_congr rfl fun i hi => ?_
      by_cases ho : (b.cell i).owned = true
      · rw [if_pos ho, if_pos ho]
        have hs : source b (b.cell i) = 0 := by
          unfold source
          split
          · rename_i hfo
            exact sum_eq_zero fun q hq => by
              rw [hforce hfo i (mem_range.1 hi) q (mem_range.1 hq), zero_mul]
          · rfl
        rw [hs, mul_zero, sub_zero]
      · simp [ho]
    rw [hform, hload, ht]
  intro a ha
  have hsys := C117_system_is_mixed_problem lu b perm hK N hN s h x (fun c => if c = a then 1 else 0)
  rw [htest, ← hsys.2] at hsys
  have h1 := hsys.1
  have hl : ∀ G : Nat → ℝ, ∑ c ∈ range N, (if c = a then (1 : ℝ) else 0)*G c = G a := by
    intro G
    rw [sum_eq_single a]
    · simp
    · intro c _ hc; simp [hc]
    · intro hn; exact absurd (mem_range.2 ha) hn
  rw [hl s.F] at h1
  rw [← h1]
  calc _ = ∑ c ∈ range N, (if c = a then (1 : ℝ) else 0)*∑ a' ∈ range N, s.K c a'*x a' :=
        (hl (fun c => ∑ a' ∈ range N, s.K c a'*x a')).symm
    _ = _ := by
        refine sum_congr rfl fun c _ => ?_
        rw [mul_sum]
        exact sum_congr rfl fun a' _ => by ring

/-! ### Two squares -/

namespace RestWitness

/-- Number of side `i` (left, right, bottom, top) of the cells `[-1,1]^2` and `[1,3]x[-1,1]`; they
share face 2. -/
def faceId (c i : Nat) : Nat := if c = 0 then i + 1 else if i = 0 then 2 else i + 4

/-- The mesh.  The normals point right and up, so they enter the cell at its left and bottom side. -/
def two : Bdm where
  dim := 2
  nv := 4
  nCells := 2
  cell := fun c =>
    { owned := true
      ltog := fun r => if r = 8 then c else 2*faceId c (2*(r % 2) + (r / 2 / 2^(r % 2)) % 2)
        + (r / 2 / 2^(1 - r % 2)) % 2
      orient := fun r => if (r / 2 / 2^(r % 2)) % 2 = 0 then -1 else 1
      emap := fun r => if (r / 2 / 2^(r % 2)) % 2 = 0 then -(faceId c (2*(r % 2)) : Int)
        else (faceId c (2*(r % 2) + 1) : Int)
      nq := 4
      pt := fun q => ⟨quadX q, 1, fun k => if k = 0 ∨ k = 3 then 1 else 0, 1, 0⟩
      nFaces := 4
      face := fun i => ⟨faceId c i, faceId c i != 2, fun d => if d = i / 2 then 1 else 0,
        if i % 2 = 0 then -1 else 1, 2,
        fun q => ⟨fun _ => quadX q 0, 1, 1, fun k => if k = 0 ∨ k = 3 then 1 else 0, 1, 5⟩⟩ }
  hasForcing := false
  hasPressure := true

/-- The unknown of the other cell on face 2. -/
def other (u : Nat × Nat) : Nat × Nat := if u.1 = 0 then (1, u.2 - 2) else (0, u.2 + 2)

theorem faceAt (c i : Nat) (hc : c < 2) (hi : i < 4) :
    FaceAt two (two.cell c) ((two.cell c).face i) (i / 2) (i % 2) := by
  interval_cases c <;> interval_cases i <;> rfl

theorem onBoundary (c i r : Nat) (hc : c < 2) : OnBoundary two (two.cell c) i r ↔
    i < 4 ∧ faceId c i ≠ 2 ∧ r % 2 = i / 2 ∧ (r / 2 / 2^(i / 2)) % 2 = i % 2 := by
  constructor
  · rintro ⟨hi, h1, _, dir, sd, hat, hon⟩
    have hi' : i < 4 := hi
    have : (dir, sd) = (i / 2, i % 2) := Option.some.inj (hat.symm.trans (faceAt c i hc hi'))
    rw [Prod.mk.injEq] at this
    obtain ⟨rfl, rfl⟩ := this
    refine ⟨hi', ?_, hon.1, hon.2⟩
    have h1' : (faceId c i != 2) = true := h1
    simpa using h1'
  · rintro ⟨hi, h1, h2, h3⟩
    refine ⟨hi, ?_, rfl, i / 2, i % 2, faceAt c i hc hi, h2, h3⟩
    show (faceId c i != 2) = true
    simpa using h1

theorem unknown (u : Nat × Nat) : Unknown two u ↔ u.1 < 2 ∧ u.2 < 8 :=
  ⟨fun h => ⟨h.1, h.2.2⟩, fun h => ⟨h.1, rfl, h.2⟩⟩

/-- The unknowns that are not on the boundary. -/
theorem inner (c r : Nat) (hc : c < 2) (hr : r < 8) (h : ∀ i, ¬ OnBoundary two (two.cell c) i r) :
    c = 0 ∧ (r = 2 ∨ r = 6) ∨ c = 1 ∧ (r = 0 ∨ r = 4) := by
  have h' := fun i => mt (onBoundary c i r hc).2 (h i)
  simp only [not_and] at h'
  have h0 := h' 0
  have h1 := h' 1
  have h2 := h' 2
  have h3 := h' 3
  interval_cases c <;> interval_cases r <;> simp [faceId] at h0 h1 h2 h3 ⊢

theorem inner' (c r : Nat) (h : c = 0 ∧ (r = 2 ∨ r = 6) ∨ c = 1 ∧ (r = 0 ∨ r = 4)) (i : Nat) :
    ¬ OnBoundary two (two.cell c) i r := by
  have hc : c < 2 := by omega
  rw [onBoundary c i r hc]
  rintro ⟨hi, h1, h2, h3⟩
  rcases h with ⟨rfl, rfl | rfl⟩ | ⟨rfl, rfl | rfl⟩ <;> interval_cases i <;> simp_all [faceId]

theorem closed : Closed two other where
  once := by
    intro u hu i j hi hj
    rw [unknown] at hu
    rw [onBoundary u.1 _ _ hu.1] at hi hj
    obtain ⟨hi1, _, hi2, hi3⟩ := hi
    obtain ⟨hj1, _, hj2, hj3⟩ := hj
    have : i / 2 = j / 2 := hi2.symm.trans hj2
    rw [← this, hi3] at hj3
    omega
  other_unknown := by
    rintro ⟨c, r⟩ hu h
    rw [unknown] at hu
    rcases inner c r hu.1 hu.2 h with ⟨rfl, rfl | rfl⟩ | ⟨rfl, rfl | rfl⟩
    all_goals
      refine ⟨(unknown _).2 (by decide), fun i => inner' _ _ (by decide) i⟩
  other_ne := by
    rintro ⟨c, r⟩ hu h
    rw [unknown] at hu
    rcases inner c r hu.1 hu.2 h with ⟨rfl, rfl | rfl⟩ | ⟨rfl, rfl | rfl⟩ <;> decide
  other_other := by
    rintro ⟨c, r⟩ hu h
    rw [unknown] at hu
    rcases inner c r hu.1 hu.2 h with ⟨rfl, rfl | rfl⟩ | ⟨rfl, rfl | rfl⟩ <;> decide
  other_row := by
    rintro ⟨c, r⟩ hu h
    rw [unknown] at hu
    rcases inner c r hu.1 hu.2 h with ⟨rfl, rfl | rfl⟩ | ⟨rfl, rfl | rfl⟩ <;> exact ⟨rfl, rfl⟩

theorem geometry (c i : Nat) (hi : i < 4) :
    FaceGeometry two ((two.cell c).face i) (i / 2) (i % 2) where
  dir_lt := by show i / 2 < 2; omega
  weights := by
    show ∑ q ∈ range 2, (1 : ℝ) = 2^(2 - 1)
    norm_num
  linear := by
    intro k _
    show ∑ q ∈ range 2, (1 : ℝ)*quadX q 0 = 0
    norm_num [sum_range_succ, quadX]
  product := fun h => absurd h (by decide)
  regular := fun q _ => one_ne_zero
  normal := by
    intro q _ m hm
    have hm' : m < 2 := hm
    show ∑ k ∈ range 2, (if k*2 + m = 0 ∨ k*2 + m = 3 then (1 : ℝ) else 0)
      *((if (if i % 2 = 0 then (-1 : ℝ) else 1) < 0 then -1 else 1)*(if k = i / 2 then 1 else 0))*1
      = 1*(if m = i / 2 then (if i % 2 = 0 then -1 else 1) else 0)
    interval_cases i <;> interval_cases m <;> norm_num [sum_range_succ]

theorem located (c : Nat) (hc : c < 2) : Located two (two.cell c) := by
  intro f hf _
  rw [show faceDirSide two.dim two.nv (two.cell c).emap ((two.cell c).face f).id
    = some (f / 2, f % 2) from faceAt c f hc hf]
  simp

theorem rows : RowsBelow two 16 := by
  intro i hi _ r hr
  have : ∀ i < 2, ∀ r < 9, (if r = 8 then i else 2*faceId i (2*(r % 2) + (r / 2 / 2^(r % 2)) % 2)
        + (r / 2 / 2^(1 - r % 2)) % 2) < 16 := by decide
  exact this i hi r hr

end RestWitness

open RestWitness in
example (lu : (Nat → ℝ) → Nat → ℝ) : Cells two ∧ RowsBelow two 16 ∧ Closed two other
    ∧ (∀ i < two.nCells, (two.cell i).owned = true → ∀ f < (two.cell i).nFaces,
      ((two.cell i).face f).isbc = true → two.hasPressure = true →
      (∃ dir side, FaceAt two (two.cell i) ((two.cell i).face f) dir side ∧ side < 2
        ∧ FaceGeometry two ((two.cell i).face f) dir side)
      ∧ ∀ q < ((two.cell i).face f).nq, (((two.cell i).face f).pt q).g = 5)
    ∧ (∃ i < two.nCells, ∃ f < (two.cell i).nFaces, ((two.cell i).face f).isbc = true)
    ∧ (∃ s, bdmComputeSystem lu two (empty (BdmWitness.perm 2)) = .ok s)
    ∧ ∃ x : Nat → ℝ, ∀ i < two.nCells, (two.cell i).owned = true →
      (∀ r < two.dim*two.nv, x ((two.cell i).ltog r) = 0) ∧ x ((two.cell i).ltog (two.dim*two.nv)) = 5 := by
  refine ⟨.inl ⟨rfl, rfl⟩, rows, closed, fun i hi _ f hf _ _ => ⟨⟨f / 2, f % 2, faceAt i f hi hf,
    by omega, geometry i f hf⟩, fun q _ => rfl⟩, ⟨0, by decide, 0, by decide, rfl⟩, ?_, ?_⟩
  · obtain ⟨s, hs, _⟩ := run_ok lu two (empty (BdmWitness.perm 2)) 2 (fun i hi _ => located i hi)
    exact ⟨s, hs⟩
  · refine ⟨fun a => if a < 2 then 5 else 0, fun i hi _ => ⟨fun r hr => ?_, ?_⟩⟩
    · have : ∀ i < 2, ∀ r < 8, ¬ (if r = 8 then i else
        2*faceId i (2*(r % 2) + (r / 2 / 2^(r % 2)) % 2) + (r / 2 / 2^(1 - r % 2)) % 2) < 2 := by decide
      exact if_neg (this i hi r hr)
    · exact if_pos hi

end

end TDy.Fe.Props
