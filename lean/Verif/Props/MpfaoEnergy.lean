import Verif.Spec.MpfaoEnergy
import Verif.Props.MpfaoSteady
import Mathlib.Algebra.BigOperators.Ring.Finset

/-!
# C177, C178: the face pressures of a vertex and the steady system are determined
-/

namespace TDy.Mpfao.Props

open TDy.Mpfao TDy.Mpfao.Spec TDy.Mpfao.Proofs
open Finset

/-- The flux seen from the subcell goes against the pressure differences `q` to its faces, on the
whole. -/
def Coercive (s : Sub) : Prop :=
  ∀ q : Nat → ℝ, (∃ k < 3, q k ≠ 0) →
    ∑ f ∈ range 3, outward s f*(q f*∑ k ∈ range 3, s.G f k*q k) < 0

theorem gradient {d0 d1 d2 : Geo.P3} (h : Geo.dot (Geo.cross d0 d1) d2 < 0) (q : Nat → ℝ) :
    ∃ g, Geo.dot g d0 = q 0 ∧ Geo.dot g d1 = q 1 ∧ Geo.dot g d2 = q 2 := by
  have hne : Geo.dot (Geo.cross d0 d1) d2 ≠ 0 := h.ne
  refine ⟨⟨(q 0*(Geo.cross d1 d2).x + q 1*(Geo.cross d2 d0).x + q 2*(Geo.cross d0 d1).x)/
      Geo.dot (Geo.cross d0 d1) d2,
    (q 0*(Geo.cross d1 d2).y + q 1*(Geo.cross d2 d0).y + q 2*(Geo.cross d0 d1).y)/
      Geo.dot (Geo.cross d0 d1) d2,
    (q 0*(Geo.cross d1 d2).z + q 1*(Geo.cross d2 d0).z + q 2*(Geo.cross d0 d1).z)/
      Geo.dot (Geo.cross d0 d1) d2⟩, ?_, ?_, ?_⟩ <;>
  · generalize hD : Geo.dot (Geo.cross d0 d1) d2 = D at *
    simp only [Geo.dot]
    field_simp
    rw [← hD]
    simp only [Geo.dot, Geo.cross]
    ring

/-- Subcells of parallelepipeds. -/
theorem coercive {K : Fin 3 → Fin 3 → ℝ} {area : Nat → ℝ} {normal fc : Nat → Geo.P3} {cen : Geo.P3}
    {s : Sub} (hK : PositiveDefinite K) (hP : Parallelepiped area normal fc cen s)
    (hG : ∀ ii jj : Fin 3, s.G ii jj = gMatrix K area normal fc cen (fun m => s.face m) ii jj) :
    Coercive s := by
  intro q hq
  obtain ⟨g, g0, g1, g2⟩ := gradient hP.oriented q
  have hg : g ≠ ⟨0, 0, 0⟩ := by
    rintro rfl
    simp only [Geo.dot, zero_mul, add_zero] at g0 g1 g2
    obtain ⟨k, hk, hne⟩ := hq
    interval_cases k
    · exact hne g0.symm
    · exact hne g1.symm
    · exact hne g2.symm
  have hlin : ∀ f : Fin 3, ∑ k ∈ range 3, s.G f k*q k =
      -(area (s.face f)*Geo.dot (normal (s.face f)) (mulK K g)) := by
    intro f
    have := oneSided_linear K area normal fc cen s hG hP.oriented g (-Geo.dot g cen)
      (fun x => Geo.dot g (fc x) + -Geo.dot g cen) (fun _ _ => rfl) f
    rw [← this, oneSided, ← sum_neg_distrib]
    refine sum_congr rfl fun k hk => ?_
    have hk' := mem_range.1 hk
    have e : q k = Geo.dot g (fc (s.face k)) - Geo.dot g cen := by
      interval_cases k
      · rw [← g0]; simp only [Geo.dot, Geo.join]; ring
      · rw [← g1]; simp only [Geo.dot, Geo.join]; ring
      · rw [← g2]; simp only [Geo.dot, Geo.join]; ring
    rw [e]; ring
  have h0 := hlin 0
  have h1 := hlin 1
  have h2 := hlin 2
  simp only [Fin.val_zero, Fin.val_one, Fin.val_two] at h0 h1 h2
  rw [sum_range_succ, sum_range_succ, sum_range_succ, sum_range_zero, h0, h1, h2]
  have q0 := hP.quarter 0 (by omega) (mulK K g)
  have q1 := hP.quarter 1 (by omega) (mulK K g)
  have q2 := hP.quarter 2 (by omega) (mulK K g)
  norm_num at q0 q1 q2
  have e : 0 + outward s 0*(q 0*-(area (s.face 0)*Geo.dot (normal (s.face 0)) (mulK K g))) +
      outward s 1*(q 1*-(area (s.face 1)*Geo.dot (normal (s.face 1)) (mulK K g))) +
      outward s 2*(q 2*-(area (s.face 2)*Geo.dot (normal (s.face 2)) (mulK K g))) =
      Geo.dot (Geo.cross (Geo.join cen (fc (s.face 0))) (Geo.join cen (fc (s.face 1))))
        (Geo.join cen (fc (s.face 2)))*Geo.dot g (mulK K g) := by
    have : 0 + outward s 0*(q 0*-(area (s.face 0)*Geo.dot (normal (s.face 0)) (mulK K g))) +
      outward s 1*(q 1*-(area (s.face 1)*Geo.dot (normal (s.face 1)) (mulK K g))) +
      outward s 2*(q 2*-(area (s.face 2)*Geo.dot (normal (s.face 2)) (mulK K g))) =
      -(q 0*(outward s 0*(area (s.face 0)*Geo.dot (normal (s.face 0)) (mulK K g))) +
        q 1*(outward s 1*(area (s.face 1)*Geo.dot (normal (s.face 1)) (mulK K g))) +
        q 2*(outward s 2*(area (s.face 2)*Geo.dot (normal (s.face 2)) (mulK K g)))) := by ring
    rw [this, q0, q1, q2, ← g0, ← g1, ← g2]
    simp only [Geo.dot, Geo.cross]
    ring
  rw [e]
  refine mul_neg_of_neg_of_pos hP.oriented ?_
  have := hK g hg
  simp only [Geo.dot, mulK]
  linarith

section
variable {v : Vtx} (wf : WellFormed v)
include wf

open Classical in
/-- Two sides of every internal face cancel. -/
theorem pair_sum (g : Nat → Nat → ℝ)
    (hI : ∀ i f i' f', InRange v i f → InRange v i' f' → (v.sub i).internal f = true →
      (v.sub i).face f = (v.sub i').face f' → (v.sub i').up f' = !(v.sub i).up f →
      g i f + g i' f' = 0)
    (hB : ∀ i f, InRange v i f → (v.sub i).internal f = false → g i f = 0) :
    ∑ i ∈ range v.npcen, ∑ f ∈ range 3, g i f = 0 := by
  rw [← sum_product']
  have mem : ∀ a ∈ range v.npcen ×ˢ range 3, InRange v a.1 a.2 := fun a ha =>
    ⟨mem_range.1 (mem_product.1 ha).1, mem_range.1 (mem_product.1 ha).2⟩
  have hex : ∀ a ∈ range v.npcen ×ˢ range 3, ∃ b ∈ range v.npcen ×ˢ range 3,
      ((v.sub a.1).internal a.2 = false → b = a) ∧
      ((v.sub a.1).internal a.2 = true → (v.sub b.1).face b.2 = (v.sub a.1).face a.2 ∧
        (v.sub b.1).up b.2 = !(v.sub a.1).up a.2) := by
    intro a ha
    cases h : (v.sub a.1).internal a.2
    · exact ⟨a, ha, fun _ => rfl, fun h => by simp at h⟩
    · obtain ⟨i', f', hr, e, u⟩ := wf.paired a.1 a.2 (mem a ha) h
      exact ⟨(i', f'), mem_product.2 ⟨mem_range.2 hr.1, mem_range.2 hr.2⟩, fun h => by simp at h,
        fun _ => ⟨e, u⟩⟩
  choose! p hp hpB hpI using hex
  refine sum_involution (fun a _ => p a) (fun a ha => ?_) (fun a ha hne => ?_) (fun a ha => hp a ha)
    (fun a ha => ?_)
  · cases h : (v.sub a.1).internal a.2
    · rw [hpB a ha h, hB _ _ (mem a ha) h, add_zero]
    · exact hI _ _ _ _ (mem a ha) (mem _ (hp a ha)) h (hpI a ha h).1.symm (hpI a ha h).2
  · intro e
    cases h : (v.sub a.1).internal a.2
    · exact hne (hB _ _ (mem a ha) h)
    · have := (hpI a ha h).2
      rw [e] at this
      cases hu : (v.sub a.1).up a.2 <;> rw [hu] at this <;> simp at this
  · cases h : (v.sub a.1).internal a.2
    · rw [hpB a ha h, hpB a ha h]
    · obtain ⟨e1, u1⟩ := hpI a ha h
      have h' : (v.sub (p a).1).internal (p a).2 = true := by
        rw [wf.internal_face _ _ _ _ (mem _ (hp a ha)) (mem a ha) e1, h]
      obtain ⟨e2, u2⟩ := hpI _ (hp a ha) h'
      have := wf.face_inj _ _ _ _ (mem _ (hp _ (hp a ha))) (mem a ha) (e2.trans e1)
        (by rw [u2, u1, Bool.not_not])
      exact Prod.ext this.1 this.2

omit wf in
theorem outward_opposite {i f i' f' : Nat} (h : (v.sub i').up f' = !(v.sub i).up f) :
    outward (v.sub i') f' = -outward (v.sub i) f := by
  unfold outward
  rw [h]
  cases (v.sub i).up f <;> simp

/-- What the fluxes do against the pressures of the cells is what they do inside the subcells. -/
theorem energy_eq (u pb p : Nat → ℝ) (hp : Balanced v u pb p) :
    ∑ i ∈ range v.npcen, ∑ f ∈ range 3, outward (v.sub i) f*
        ((u i - if (v.sub i).internal f = true ∨ v.dirichlet = false then 0 else
          pb ((v.sub i).bnd f))*oneSided (v.sub i) (u i) p f) =
      ∑ i ∈ range v.npcen, ∑ f ∈ range 3, outward (v.sub i) f*((u i - p ((v.sub i).face f))*
        ∑ k ∈ range 3, (v.sub i).G f k*(u i - p ((v.sub i).face k))) := by
  rw [← sub_eq_zero, ← sum_sub_distrib]
  simp only [← sum_sub_distrib]
  refine pair_sum wf (fun i f => outward (v.sub i) f*
        ((u i - if (v.sub i).internal f = true ∨ v.dirichlet = false then 0 else
          pb ((v.sub i).bnd f))*oneSided (v.sub i) (u i) p f) -
      outward (v.sub i) f*((u i - p ((v.sub i).face f))*
        ∑ k ∈ range 3, (v.sub i).G f k*(u i - p ((v.sub i).face k)))) ?_ ?_
  · intro i f i' f' h h' hi e hu
    have hi' : (v.sub i').internal f' = true := by
      rw [← wf.internal_face _ _ _ _ h h' e, hi]
    have c := hp.continuous i f i' f' h h' hi e
    rw [outward_opposite hu, if_pos (Or.inl hi), if_pos (Or.inl hi'), ← c, ← e]
    change _ - outward (v.sub i) f*((u i - p ((v.sub i).face f))*
      oneSided (v.sub i) (u i) p f) + (_ - -outward (v.sub i) f*
      ((u i' - p ((v.sub i).face f))*oneSided (v.sub i') (u i') p f')) = 0
    rw [← c]
    ring
  · intro i f h hb
    have b := hp.boundary i f h hb
    change _ - outward (v.sub i) f*((u i - p ((v.sub i).face f))*
      oneSided (v.sub i) (u i) p f) = 0
    cases hd : v.dirichlet
    · rw [hd, if_neg (by simp)] at b
      rw [b]; ring
    · rw [hd, if_pos rfl] at b
      rw [if_neg (by simp [hb]), b]; ring

end

theorem solvable_of_coercive {v : Vtx} (wf : WellFormed v)
    (hc : ∀ i < v.npcen, Coercive (v.sub i)) : ∃ T, trans v = some T := by
  cases h : trans v with
  | some T => exact ⟨T, rfl⟩
  | none =>
    exfalso
    obtain ⟨p, hp, i, f, hi, hne⟩ := (C47_refused_iff wf).1 h
    have e := energy_eq wf _ _ _ hp
    simp only [ite_self, sub_self, zero_mul, mul_zero, sum_const_zero, zero_sub] at e
    have hle : ∀ j ∈ range v.npcen, ∑ f ∈ range 3, outward (v.sub j) f*
        (-p ((v.sub j).face f)*∑ k ∈ range 3, (v.sub j).G f k*-p ((v.sub j).face k)) ≤ 0 := by
      intro j hj
      by_cases hz : ∃ k < 3, -p ((v.sub j).face k) ≠ 0
      · exact (hc j (mem_range.1 hj) (fun k => -p ((v.sub j).face k)) hz).le
      · push Not at hz
        refine (sum_eq_zero fun f hf => ?_).le
        rw [hz f (mem_range.1 hf), zero_mul, mul_zero]
    have hz := (sum_eq_zero_iff_of_nonpos hle).1 e.symm i (mem_range.2 hi.1)
    have := hc i hi.1 (fun k => -p ((v.sub i).face k)) ⟨f, hi.2, neg_ne_zero.2 hne⟩
    exact absurd hz this.ne

theorem coercive_box {v : Vtx} (hb : BoxCells v) : ∀ i < v.npcen, Coercive (v.sub i) := by
  obtain ⟨K, area, normal, fc, cen, h⟩ := hb
  exact fun i hi => coercive (h i hi).1 (h i hi).2.1 (h i hi).2.2

/-- **C177.**  Around a vertex of parallelepipeds with positive definite permeabilities, whatever
they are and however they jump from cell to cell, the face pressures are determined: the code never
refuses the vertex. -/
theorem C177_solvable {v : Vtx} (wf : WellFormed v) (hb : BoxCells v) :
    (∃ T, trans v = some T) ∧ ∀ u pb, ∃ p, Balanced v u pb p ∧
      ∀ p', Balanced v u pb p' → ∀ i f, InRange v i f →
        p' ((v.sub i).face f) = p ((v.sub i).face f) := by
  obtain ⟨T, hT⟩ := solvable_of_coercive wf (coercive_box hb)
  exact ⟨⟨T, hT⟩, C47_face_pressures wf hT⟩

theorem throughFace_eq {v : Vtx} (wf : WellFormed v) {T} (hT : trans v = some T) {u pb p : Nat → ℝ}
    (hp : Balanced v u pb p) {i f : Nat} (h : InRange v i f)
    (hb : (v.sub i).internal f = true ∨ v.dirichlet = true) :
    throughFace v T u pb ((v.sub i).face f) = oneSided (v.sub i) (u i) p f := by
  obtain ⟨r, hr, hu⟩ := (C47_rows wf).2 i f h
  unfold throughFace
  rw [sum_eq_single r, if_pos hr.2, C47_common_flux wf hT u pb p hp h hb hr]
  · intro r' hr' hne
    exact if_neg fun e => hne (hu r' ⟨mem_range.1 hr', e⟩)
  · intro hn; exact absurd (mem_range.2 hr.1) hn

theorem work_eq {v : Vtx} (wf : WellFormed v) {T} (hT : trans v = some T) {u pb p : Nat → ℝ}
    (hp : Balanced v u pb p) :
    work v T u pb = ∑ i ∈ range v.npcen, ∑ f ∈ range 3, outward (v.sub i) f*
      ((u i - p ((v.sub i).face f))*
        ∑ k ∈ range 3, (v.sub i).G f k*(u i - p ((v.sub i).face k))) := by
  rw [← energy_eq wf u pb p hp]
  unfold work
  refine sum_congr rfl fun i hi => sum_congr rfl fun f hf => ?_
  have h : InRange v i f := ⟨mem_range.1 hi, mem_range.1 hf⟩
  by_cases hb : (v.sub i).internal f = true ∨ v.dirichlet = true
  · rw [if_pos hb, throughFace_eq wf hT hp h hb, beyond]
    cases hI : (v.sub i).internal f
    · have hd : v.dirichlet = true := by simpa [hI] using hb
      rw [if_neg (by simp), if_neg (by simp [hd])]
    · rw [if_pos rfl, if_pos (Or.inl rfl)]
  · rw [if_neg hb]
    push Not at hb
    have b := hp.boundary i f h (by simpa using hb.1)
    rw [if_neg hb.2] at b
    rw [b, mul_zero, mul_zero]

/-- **C177.**  The fluxes the transmissibilities give go from high to low pressure on the whole, and
do so strictly unless all cells joined by a face have the same pressure and the boundary pressures
are those of the cells. -/
theorem C177_downhill {v : Vtx} (wf : WellFormed v) (hb : BoxCells v) {T}
    (hT : trans v = some T) (u pb : Nat → ℝ) :
    work v T u pb ≤ 0 ∧ (work v T u pb = 0 →
      (∀ i f i' f', InRange v i f → InRange v i' f' → (v.sub i).face f = (v.sub i').face f' →
        u i = u i') ∧
      (v.dirichlet = true → ∀ i f, InRange v i f → (v.sub i).internal f = false →
        u i = pb ((v.sub i).bnd f))) := by
  obtain ⟨p, hp, -⟩ := C47_face_pressures wf hT u pb
  have hc := coercive_box hb
  rw [work_eq wf hT hp]
  have hle : ∀ j ∈ range v.npcen, ∑ f ∈ range 3, outward (v.sub j) f*
      ((u j - p ((v.sub j).face f))*
        ∑ k ∈ range 3, (v.sub j).G f k*(u j - p ((v.sub j).face k))) ≤ 0 := by
    intro j hj
    by_cases hz : ∃ k < 3, u j - p ((v.sub j).face k) ≠ 0
    · exact (hc j (mem_range.1 hj) (fun k => u j - p ((v.sub j).face k)) hz).le
    · push Not at hz
      refine (sum_eq_zero fun f hf => ?_).le
      rw [hz f (mem_range.1 hf), zero_mul, mul_zero]
  refine ⟨sum_nonpos hle, fun e => ?_⟩
  have hz := (sum_eq_zero_iff_of_nonpos hle).1 e
  have key : ∀ i f, InRange v i f → u i = p ((v.sub i).face f) := by
    intro i f h
    by_contra hne
    have := hc i h.1 (fun k => u i - p ((v.sub i).face k)) ⟨f, h.2, sub_ne_zero.2 hne⟩
    exact absurd (hz i (mem_range.2 h.1)) this.ne
  refine ⟨fun i f i' f' h h' e => by rw [key i f h, key i' f' h', e], fun hd i f h hI => ?_⟩
  have b := hp.boundary i f h hI
  rw [if_pos hd] at b
  rw [key i f h, b]

/-! ### The steady system -/

/-- What enters row `r` through subface `i` for prescribed pressures zero. -/
theorem energy_rows_linear {m : Steady} {N : Nat} (ok : SteadyOk m N) (u : Nat → ℝ) (r : Nat) (s : Sys) :
    ∑ c ∈ range N, (computeSystem m s).K r c*u c =
      ∑ n ∈ range m.numVertices, (
        (if Regular (m.vert n) then ∑ i ∈ range (m.vert n).nFaces,
          ((if OwnsSide m (m.face ((m.vert n).face i)).dn r then
              ∑ k ∈ range (m.vert n).nCells, (m.vert n).T i k*u (m.gid ((m.vert n).cell k)) else 0) -
            if OwnsSide m (m.face ((m.vert n).face i)).up r then
              ∑ k ∈ range (m.vert n).nCells, (m.vert n).T i k*u (m.gid ((m.vert n).cell k)) else 0)
          else 0) +
        if IsCorner (m.vert n) ∧ Owns m ((m.vert n).cell 0) r then
          cornerDiagonal m (m.vert n)*u r else 0) := by
  have e : ∑ c ∈ range N, (computeSystem m s).K r c*u c =
      unbalance N (computeSystem m s) u r - unbalance N (computeSystem m s) (fun _ => 0) r := by
    simp [unbalance]
  rw [e, C60_rows ok, C60_rows ok]
  rw [sub_sub_sub_cancel_right, sub_sub_sub_cancel_right, ← sum_sub_distrib]
  refine sum_congr rfl fun n _ => ?_
  rw [add_sub_add_comm]
  congr 1
  · split_ifs
    · rw [← sum_sub_distrib]
      refine sum_congr rfl fun i _ => ?_
      unfold subfaceIn throughSub
      simp only [mul_zero, sum_const_zero, zero_add]
      split_ifs <;> ring
    · ring
  · split_ifs with h
    · rw [← sum_sub_distrib, cornerDiagonal, sum_mul]
      refine sum_congr rfl fun i _ => ?_
      unfold cornerIn
      dsimp only
      rw [h.2.2]
      split_ifs <;> ring
    · ring

/-- Pressure on a side of a face, zero outside. -/
noncomputable def sideP (m : Steady) (u : Nat → ℝ) (c : ℤ) : ℝ :=
  if 0 ≤ c then u (m.gid c.toNat) else 0

theorem sum_side_mul {m : Steady} {N : Nat} (one : OneProcess m N) {c : ℤ} (hc : c < m.numCells)
    (u : Nat → ℝ) (x : ℝ) :
    ∑ r ∈ range N, u r*(if OwnsSide m c r then x else 0) = sideP m u c*x := by
  unfold sideP
  by_cases h : 0 ≤ c
  · rw [if_pos h, sum_eq_single (m.gid c.toNat), if_pos ⟨h, one.all _, rfl⟩]
    · intro b _ hb; rw [if_neg fun hh => hb hh.2.2.symm, mul_zero]
    · intro hn; exact absurd (mem_range.2 (one.row _ (by omega))) hn
  · rw [if_neg h, zero_mul]
    exact sum_eq_zero fun r _ => by rw [if_neg fun hh => h hh.1, mul_zero]

theorem form_eq {m : Steady} {N : Nat} (ok : SteadyOk m N) (one : OneProcess m N) (u : Nat → ℝ)
    (s : Sys) :
    ∑ r ∈ range N, u r*∑ c ∈ range N, (computeSystem m s).K r c*u c =
      ∑ n ∈ range m.numVertices, (
        (if Regular (m.vert n) then ∑ i ∈ range (m.vert n).nFaces,
          (sideP m u (m.face ((m.vert n).face i)).dn - sideP m u (m.face ((m.vert n).face i)).up)*
            ∑ k ∈ range (m.vert n).nCells, (m.vert n).T i k*u (m.gid ((m.vert n).cell k))
          else 0) +
        if IsCorner (m.vert n) then
          cornerDiagonal m (m.vert n)*u (m.gid ((m.vert n).cell 0))^2 else 0) := by
  simp only [energy_rows_linear ok, mul_sum]
  rw [sum_comm]
  refine sum_congr rfl fun n hn => ?_
  simp only [mul_add, sum_add_distrib]
  congr 1
  · by_cases h : Regular (m.vert n)
    · simp only [if_pos h, mul_sum (s := range (m.vert n).nFaces)]
      rw [sum_comm]
      refine sum_congr rfl fun i hi => ?_
      have hs := one.side n (mem_range.1 hn) i (mem_range.1 hi)
      simp only [mul_sub]
      rw [sum_sub_distrib, sum_side_mul one hs.2, sum_side_mul one hs.1, ← sub_mul, mul_sum]
    · simp only [if_neg h, mul_zero, sum_const_zero]
  · by_cases h : IsCorner (m.vert n)
    · rw [if_pos h, sum_eq_single (m.gid ((m.vert n).cell 0)), if_pos ⟨h, one.all _, rfl⟩]
      · ring
      · intro b _ hb; rw [if_neg fun hh => hb hh.2.2.symm, mul_zero]
      · intro hn'
        have hc := ok.corner n (mem_range.1 hn) (by omega) (by omega)
        exact absurd (mem_range.2 (ok.lt n (mem_range.1 hn) 0 (by omega))) hn'
    · rw [if_neg h]
      exact sum_eq_zero fun r _ => by rw [if_neg fun hh => h hh.1, mul_zero]

section
variable {m : Steady} {w : SVert} {v : Vtx} {T : Nat → Fin (v.npcen + nDir v) → ℝ}

theorem sides (ar : SolvedAround m w v T) (u : Nat → ℝ) {r : Nat} (hr : r < w.nFaces) :
    ∑ a ∈ range v.npcen ×ˢ range 3, (if vertexFaces v r = (v.sub a.1).face a.2 then
        outward (v.sub a.1) a.2*u (m.gid (w.cell a.1)) else 0) =
      sideP m u (m.face (w.face r)).up - sideP m u (m.face (w.face r)).dn := by
  have wf := ar.wf
  obtain ⟨i, f, h, hrow, -⟩ := row_onto wf (ar.nFaces ▸ hr)
  have hx : w.face r = (v.sub i).face f := by rw [ar.face r hr, hrow.2]
  have mem : ∀ a ∈ range v.npcen ×ˢ range 3, InRange v a.1 a.2 := fun a ha =>
    ⟨mem_range.1 (mem_product.1 ha).1, mem_range.1 (mem_product.1 ha).2⟩
  have mem' : ∀ i f, InRange v i f → (i, f) ∈ range v.npcen ×ˢ range 3 := fun i f h =>
    mem_product.2 ⟨mem_range.2 h.1, mem_range.2 h.2⟩
  have upv : ∀ i f, InRange v i f → (v.sub i).up f = true →
      sideP m u (m.face ((v.sub i).face f)).up = u (m.gid (w.cell i)) := by
    intro i f h hu
    rw [(ar.above i f h hu).1, sideP, if_pos (by omega), Int.toNat_natCast]
  have dnv : ∀ i f, InRange v i f → (v.sub i).up f = false →
      sideP m u (m.face ((v.sub i).face f)).dn = u (m.gid (w.cell i)) := by
    intro i f h hu
    rw [(ar.below i f h hu).1, sideP, if_pos (by omega), Int.toNat_natCast]
  rw [hrow.2, hx]
  cases hI : (v.sub i).internal f
  · rw [sum_eq_single (i, f), if_pos rfl]
    · dsimp only
      cases hu : (v.sub i).up f
      · have z : sideP m u (m.face ((v.sub i).face f)).up = 0 :=
          if_neg (by have := (ar.below i f h hu).2 hI; omega)
        rw [dnv i f h hu, z, outward, hu, if_neg (by simp)]
        ring
      · have z : sideP m u (m.face ((v.sub i).face f)).dn = 0 :=
          if_neg (by have := (ar.above i f h hu).2 hI; omega)
        rw [upv i f h hu, z, outward, hu, if_pos rfl]
        ring
    · intro a ha hne
      refine if_neg fun e => hne ?_
      obtain ⟨e1, e2⟩ := wf.bnd_once i f a.1 a.2 h (mem a ha) hI e
      exact Prod.ext e1.symm e2.symm
    · intro hn; exact absurd (mem' i f h) hn
  · obtain ⟨i', f', h', e, hu'⟩ := wf.paired i f h hI
    have ne : (i, f) ≠ (i', f') := by
      intro he
      obtain ⟨rfl, rfl⟩ := Prod.mk.inj he
      cases hu : (v.sub i).up f <;> rw [hu] at hu' <;> simp at hu'
    rw [sum_eq_add (i, f) (i', f') ne, if_pos rfl, if_pos e.symm]
    · dsimp only
      rw [outward_opposite hu']
      cases hu : (v.sub i).up f
      · have k1 := dnv i f h hu
        have k2 := upv i' f' h' (by rw [hu', hu]; rfl)
        rw [e] at k2
        rw [k1, k2, outward, hu, if_neg (by simp)]
        ring
      · have k1 := upv i f h hu
        have k2 := dnv i' f' h' (by rw [hu', hu]; rfl)
        rw [e] at k2
        rw [k1, k2, outward, hu, if_pos rfl]
        ring
    · rintro a ha ⟨n1, n2⟩
      refine if_neg fun ee => ?_
      by_cases hu : (v.sub a.1).up a.2 = (v.sub i).up f
      · obtain ⟨e1, e2⟩ := wf.face_inj a.1 a.2 i f (mem a ha) h ee.symm hu
        exact n1 (Prod.ext e1 e2)
      · have hu2 : (v.sub a.1).up a.2 = (v.sub i').up f' := by
          rw [hu']
          cases h1 : (v.sub a.1).up a.2 <;> cases h2 : (v.sub i).up f <;> simp_all
        obtain ⟨e1, e2⟩ := wf.face_inj a.1 a.2 i' f' (mem a ha) h' (ee.symm.trans e.symm) hu2
        exact n2 (Prod.ext e1 e2)
    · intro hn; exact absurd (mem' i f h) hn
    · intro hn; exact absurd (mem' i' f' h') hn

theorem transTimes_cells (ar : SolvedAround m w v T) (u : Nat → ℝ) {i : Nat} (hi : i < w.nFaces) :
    ∑ k ∈ range w.nCells, w.T i k*u (m.gid (w.cell k)) =
      transTimes v T (fun k => u (m.gid (w.cell k))) (fun _ => 0) i := by
  rw [transTimes, ar.nCells]
  have : ∀ j : Fin (v.npcen + nDir v), T i j*(if j.1 < v.npcen then u (m.gid (w.cell j)) else 0) =
      w.T i j*(if j.1 < v.npcen then u (m.gid (w.cell j)) else 0) := fun j => by
    rw [ar.T i hi j]
  rw [sum_congr rfl fun j _ => this j, ← sum_range fun j =>
    w.T i j*(if j < v.npcen then u (m.gid (w.cell j)) else 0), sum_range_add]
  have z : ∑ x ∈ range (nDir v), w.T i (v.npcen + x)*
      (if v.npcen + x < v.npcen then u (m.gid (w.cell (v.npcen + x))) else 0) = 0 :=
    sum_eq_zero fun x _ => by rw [if_neg (by omega), mul_zero]
  rw [z, add_zero]
  exact sum_congr rfl fun k hk => by rw [if_pos (mem_range.1 hk)]

theorem vertex_form (ar : SolvedAround m w v T) (u : Nat → ℝ) :
    ∑ i ∈ range w.nFaces, (sideP m u (m.face (w.face i)).dn - sideP m u (m.face (w.face i)).up)*
        ∑ k ∈ range w.nCells, w.T i k*u (m.gid (w.cell k)) =
      -work v T (fun k => u (m.gid (w.cell k))) (fun _ => 0) := by
  have wk : work v T (fun k => u (m.gid (w.cell k))) (fun _ => 0) =
      ∑ r ∈ range w.nFaces, (∑ a ∈ range v.npcen ×ˢ range 3,
        (if vertexFaces v r = (v.sub a.1).face a.2 then
          outward (v.sub a.1) a.2*u (m.gid (w.cell a.1)) else 0))*
        transTimes v T (fun k => u (m.gid (w.cell k))) (fun _ => 0) r := by
    unfold work throughFace
    simp only [sum_mul]
    conv_rhs => rw [sum_comm]
    rw [← sum_product', ar.nFaces]
    refine sum_congr rfl fun a _ => ?_
    rw [if_pos (Or.inr ar.dirichlet)]
    have hb : beyond (v.sub a.1) (fun _ => 0) a.2 = 0 := by simp [beyond]
    rw [hb, sub_zero, mul_sum, mul_sum]
    refine sum_congr rfl fun r _ => ?_
    split_ifs <;> ring
  rw [wk, neg_eq_neg_one_mul, mul_sum]
  refine sum_congr rfl fun r hr => ?_
  rw [sides ar u (mem_range.1 hr), transTimes_cells ar u (mem_range.1 hr)]
  ring

end

section
variable {m : Steady} {N : Nat} (ok : SteadyOk m N) (one : OneProcess m N)
    (ar : ∀ n < m.numVertices, Regular (m.vert n) → ∃ v T, SolvedAround m (m.vert n) v T ∧ BoxCells v)
    (hc : ∀ n < m.numVertices, IsCorner (m.vert n) → 0 ≤ cornerDiagonal m (m.vert n))
    (rows : ∀ r < N, ∃ c, Tied m c ∧ m.gid c = r)
include ok one ar hc rows

/-- **C178.**  With prescribed boundary pressures the steady matrix is positive definite.
Missing: corner vertices may not take away from the diagonal, which the code does not ensure
(`C99`). -/
theorem C178_positive_partial (s : Sys) (u : Nat → ℝ) (hu : ∃ r < N, u r ≠ 0) :
    0 < ∑ r ∈ range N, u r*∑ c ∈ range N, (computeSystem m s).K r c*u c := by
  rw [form_eq ok one]
  have hv : ∀ n ∈ range m.numVertices, 0 ≤ (if Regular (m.vert n) then
      ∑ i ∈ range (m.vert n).nFaces,
        (sideP m u (m.face ((m.vert n).face i)).dn - sideP m u (m.face ((m.vert n).face i)).up)*
          ∑ k ∈ range (m.vert n).nCells, (m.vert n).T i k*u (m.gid ((m.vert n).cell k))
      else 0) := by
    intro n hn
    split_ifs with h
    · obtain ⟨v, T, a, b⟩ := ar n (mem_range.1 hn) h
      rw [vertex_form a]
      linarith [(C177_downhill a.wf b a.trans (fun k => u (m.gid ((m.vert n).cell k)))
        (fun _ => 0)).1]
    · exact le_rfl
  have hk : ∀ n ∈ range m.numVertices, 0 ≤ (if IsCorner (m.vert n) then
      cornerDiagonal m (m.vert n)*u (m.gid ((m.vert n).cell 0))^2 else 0) := by
    intro n hn
    split_ifs with h
    · exact mul_nonneg (hc n (mem_range.1 hn) h) (sq_nonneg _)
    · exact le_rfl
  refine lt_of_le_of_ne (sum_nonneg fun n hn => add_nonneg (hv n hn) (hk n hn)) fun e => ?_
  have hz := (sum_eq_zero_iff_of_nonneg fun n hn => add_nonneg (hv n hn) (hk n hn)).1 e.symm
  have hs : ∀ n, n < m.numVertices → Regular (m.vert n) → ∀ i < (m.vert n).nFaces,
      sideP m u (m.face ((m.vert n).face i)).up = sideP m u (m.face ((m.vert n).face i)).dn := by
    intro n hn hR r hr
    have h0 := hz n (mem_range.2 hn)
    have h1 := hv n (mem_range.2 hn)
    have h2 := hk n (mem_range.2 hn)
    have h3 : (if Regular (m.vert n) then ∑ i ∈ range (m.vert n).nFaces,
        (sideP m u (m.face ((m.vert n).face i)).dn - sideP m u (m.face ((m.vert n).face i)).up)*
          ∑ k ∈ range (m.vert n).nCells, (m.vert n).T i k*u (m.gid ((m.vert n).cell k))
      else 0) = 0 := by linarith
    rw [if_pos hR] at h3
    obtain ⟨v, T, a, b⟩ := ar n hn hR
    rw [vertex_form a, neg_eq_zero] at h3
    obtain ⟨k1, k2⟩ := (C177_downhill a.wf b a.trans _ _).2 h3
    obtain ⟨i, f, h, hrow, -⟩ := row_onto a.wf (a.nFaces ▸ hr)
    have hx : (m.vert n).face r = (v.sub i).face f := by rw [a.face r hr, hrow.2]
    rw [hx]
    have upv : ∀ i f, InRange v i f → (v.sub i).up f = true →
        sideP m u (m.face ((v.sub i).face f)).up = u (m.gid ((m.vert n).cell i)) := by
      intro i f h hu
      rw [(a.above i f h hu).1, sideP, if_pos (by omega), Int.toNat_natCast]
    have dnv : ∀ i f, InRange v i f → (v.sub i).up f = false →
        sideP m u (m.face ((v.sub i).face f)).dn = u (m.gid ((m.vert n).cell i)) := by
      intro i f h hu
      rw [(a.below i f h hu).1, sideP, if_pos (by omega), Int.toNat_natCast]
    cases hI : (v.sub i).internal f
    · have hb := k2 a.dirichlet i f h hI
      cases hu : (v.sub i).up f
      · have z : sideP m u (m.face ((v.sub i).face f)).up = 0 :=
          if_neg (by have := (a.below i f h hu).2 hI; omega)
        rw [dnv i f h hu, z]; exact hb.symm
      · have z : sideP m u (m.face ((v.sub i).face f)).dn = 0 :=
          if_neg (by have := (a.above i f h hu).2 hI; omega)
        rw [upv i f h hu, z]; exact hb
    · obtain ⟨i', f', h', e, hu'⟩ := a.wf.paired i f h hI
      have hb := k1 i f i' f' h h' e.symm
      cases hu : (v.sub i).up f
      · have k := upv i' f' h' (by rw [hu', hu]; rfl)
        rw [e] at k
        rw [dnv i f h hu, k]; exact hb.symm
      · have k := dnv i' f' h' (by rw [hu', hu]; rfl)
        rw [e] at k
        rw [upv i f h hu, k]; exact hb
  have nat : ∀ c : Nat, sideP m u (c : ℤ) = u (m.gid c) := fun c => by
    rw [sideP, if_pos (by omega), Int.toNat_natCast]
  have neg : ∀ c : ℤ, c < 0 → sideP m u c = 0 := fun c h => if_neg (by omega)
  have tied : ∀ c, Tied m c → u (m.gid c) = 0 := by
    intro c h
    induction h with
    | up n i c h1 h2 h3 h4 h5 =>
      have := hs n h1 h2 i h3
      rwa [h4, nat, neg _ h5] at this
    | dn n i c h1 h2 h3 h4 h5 =>
      have := hs n h1 h2 i h3
      rw [h4, nat, neg _ h5] at this
      exact this.symm
    | across n i c c' h1 h2 h3 h4 h5 _ ih =>
      have := hs n h1 h2 i h3
      rw [h4, h5, nat, nat] at this
      rw [← this, ih]
    | back n i c c' h1 h2 h3 h4 h5 _ ih =>
      have := hs n h1 h2 i h3
      rw [h4, h5, nat, nat] at this
      rw [this, ih]
  obtain ⟨r, hr, hne⟩ := hu
  obtain ⟨c, ht, rfl⟩ := rows r hr
  exact hne (tied c ht)

/-- **C178.**  So the steady problem has exactly one solution, whatever the right-hand side. -/
theorem C178_unique_partial (s : Sys) (b : Fin N → ℝ) :
    ∃! u : Fin N → ℝ, ∀ r : Fin N, ∑ c : Fin N, (computeSystem m s).K r c*u c = b r := by
  let A : Matrix (Fin N) (Fin N) ℝ := fun r c => (computeSystem m s).K r c
  have hA : A.det ≠ 0 := by
    intro h
    obtain ⟨x, hx0, hx⟩ := Matrix.exists_mulVec_eq_zero_iff.2 h
    let u : Nat → ℝ := fun r => if h : r < N then x ⟨r, h⟩ else 0
    obtain ⟨r, hr⟩ := Function.ne_iff.1 hx0
    have hp := C178_positive_partial ok one ar hc rows s u ⟨r, r.2, by
      rw [show u r = x r from dif_pos r.2]; exact hr⟩
    refine hp.ne' (sum_eq_zero fun r hr => ?_)
    have hr' := mem_range.1 hr
    have : ∑ c ∈ range N, (computeSystem m s).K r c*u c = 0 := by
      rw [sum_range]
      have : ∑ i, A ⟨r, hr'⟩ i*x i = 0 := congrFun hx ⟨r, hr'⟩
      rw [← this]
      refine sum_congr rfl fun c _ => ?_
      simp only [u, dif_pos c.2]
      rfl
    rw [this, mul_zero]
  have hu : IsUnit A.det := isUnit_iff_ne_zero.2 hA
  refine ⟨A⁻¹.mulVec b, fun r => ?_, fun y hy => ?_⟩
  · have : A.mulVec (A⁻¹.mulVec b) = b := by
      rw [Matrix.mulVec_mulVec, Matrix.mul_nonsing_inv _ hu, Matrix.one_mulVec]
    exact congrFun this r
  · have : A.mulVec y = b := funext hy
    rw [← this, Matrix.mulVec_mulVec, Matrix.nonsing_inv_mul _ hu, Matrix.one_mulVec]

end

/-! ### Symmetry -/

theorem oneSided_eq (s : Sub) (u : ℝ) (p : Nat → ℝ) (f : Nat) :
    oneSided s u p f = ∑ k ∈ range 3, s.G f k*(u - p (s.face k)) := rfl

/-- The fluxes of one pressure field against another. -/
theorem pair_eq {v : Vtx} (wf : WellFormed v) (hd : v.dirichlet = true) {u p w q : Nat → ℝ}
    (hp : Balanced v u (fun _ => 0) p) (hq : Balanced v w (fun _ => 0) q) :
    ∑ i ∈ range v.npcen, ∑ f ∈ range 3, outward (v.sub i) f*(w i*oneSided (v.sub i) (u i) p f) =
      ∑ i ∈ range v.npcen, ∑ f ∈ range 3, outward (v.sub i) f*((w i - q ((v.sub i).face f))*
        oneSided (v.sub i) (u i) p f) := by
  rw [← sub_eq_zero, ← sum_sub_distrib]
  simp only [← sum_sub_distrib]
  refine pair_sum wf (fun i f => outward (v.sub i) f*(w i*oneSided (v.sub i) (u i) p f) -
      outward (v.sub i) f*((w i - q ((v.sub i).face f))*oneSided (v.sub i) (u i) p f)) ?_ ?_
  · intro i f i' f' h h' hi e hu
    rw [outward_opposite hu, ← hp.continuous i f i' f' h h' hi e, ← e]
    ring
  · intro i f h hb
    have b := hq.boundary i f h hb
    rw [if_pos hd] at b
    rw [b]; ring

/-- With a symmetric tensor the subcells of a parallelepiped have symmetric matrices. -/
theorem symmetric_sub {K : Fin 3 → Fin 3 → ℝ} {area : Nat → ℝ} {normal fc : Nat → Geo.P3}
    {cen : Geo.P3} {s : Sub} (hK : ∀ i j, K i j = K j i)
    (hP : Parallelepiped area normal fc cen s)
    (hG : ∀ ii jj : Fin 3, s.G ii jj = gMatrix K area normal fc cen (fun m => s.face m) ii jj)
    {f k : Nat} (hf : f < 3) (hk : k < 3) :
    outward s f*s.G f k = outward s k*s.G k f := by
  have q := hP.quarter
  have key : ∀ a b : Fin 3, outward s a*s.G a b =
      -Geo.dot (Geo.cross (Geo.join cen (fc (s.face ((a + 1) % 3))))
        (Geo.join cen (fc (s.face ((a + 2) % 3)))))
        (mulK K (nuVector fc cen (fun m => s.face m) b))*(1/subcellT fc cen (fun m => s.face m)) := by
    intro a b
    rw [← q a a.2, hG a b]
    simp only [gMatrix, entryOfG, mulK, Geo.dot]
    norm_num
    ring
  have e1 := key ⟨f, hf⟩ ⟨k, hk⟩
  have e2 := key ⟨k, hk⟩ ⟨f, hf⟩
  dsimp only at e1 e2
  rw [e1, e2]
  congr 1
  have h01 := hK 0 1
  have h02 := hK 0 2
  have h12 := hK 1 2
  interval_cases f <;> interval_cases k <;>
    simp [nuVector, Geo.normalTriangle, mulK, Geo.dot, Geo.cross, Geo.join, h01, h02, h12] <;> ring

theorem local_symmetric {v : Vtx} (wf : WellFormed v) (hs : SymmetricCells v)
    (hd : v.dirichlet = true) {u p w q : Nat → ℝ}
    (hp : Balanced v u (fun _ => 0) p) (hq : Balanced v w (fun _ => 0) q) :
    ∑ i ∈ range v.npcen, ∑ f ∈ range 3, outward (v.sub i) f*(w i*oneSided (v.sub i) (u i) p f) =
      ∑ i ∈ range v.npcen, ∑ f ∈ range 3,
        outward (v.sub i) f*(u i*oneSided (v.sub i) (w i) q f) := by
  rw [pair_eq wf hd hp hq, pair_eq wf hd hq hp]
  obtain ⟨K, area, normal, fc, cen, h⟩ := hs
  refine sum_congr rfl fun i hi => ?_
  obtain ⟨h1, h2, h3⟩ := h i (mem_range.1 hi)
  simp only [oneSided_eq, mul_sum]
  rw [sum_comm]
  refine sum_congr rfl fun k hk => sum_congr rfl fun f hf => ?_
  have e := symmetric_sub h1 h2 h3 (mem_range.1 hf) (mem_range.1 hk)
  calc outward (v.sub i) f*((w i - q ((v.sub i).face f))*
        ((v.sub i).G f k*(u i - p ((v.sub i).face k))))
      = (outward (v.sub i) f*(v.sub i).G f k)*((w i - q ((v.sub i).face f))*
        (u i - p ((v.sub i).face k))) := by ring
    _ = _ := by rw [e]; ring

theorem form2_eq {m : Steady} {N : Nat} (ok : SteadyOk m N) (one : OneProcess m N) (w u : Nat → ℝ)
    (s : Sys) :
    ∑ r ∈ range N, w r*∑ c ∈ range N, (computeSystem m s).K r c*u c =
      ∑ n ∈ range m.numVertices, (
        (if Regular (m.vert n) then ∑ i ∈ range (m.vert n).nFaces,
          (sideP m w (m.face ((m.vert n).face i)).dn - sideP m w (m.face ((m.vert n).face i)).up)*
            ∑ k ∈ range (m.vert n).nCells, (m.vert n).T i k*u (m.gid ((m.vert n).cell k))
          else 0) +
        if IsCorner (m.vert n) then
          cornerDiagonal m (m.vert n)*(w (m.gid ((m.vert n).cell 0))*
            u (m.gid ((m.vert n).cell 0))) else 0) := by
  simp only [energy_rows_linear ok, mul_sum]
  rw [sum_comm]
  refine sum_congr rfl fun n hn => ?_
  simp only [mul_add, sum_add_distrib]
  congr 1
  · by_cases h : Regular (m.vert n)
    · simp only [if_pos h, mul_sum (s := range (m.vert n).nFaces)]
      rw [sum_comm]
      refine sum_congr rfl fun i hi => ?_
      have hs := one.side n (mem_range.1 hn) i (mem_range.1 hi)
      simp only [mul_sub]
      rw [sum_sub_distrib, sum_side_mul one hs.2, sum_side_mul one hs.1, ← sub_mul, mul_sum]
    · simp only [if_neg h, mul_zero, sum_const_zero]
  · by_cases h : IsCorner (m.vert n)
    · rw [if_pos h, sum_eq_single (m.gid ((m.vert n).cell 0)), if_pos ⟨h, one.all _, rfl⟩]
      · ring
      · intro b _ hb; rw [if_neg fun hh => hb hh.2.2.symm, mul_zero]
      · intro hn'
        have hc := ok.corner n (mem_range.1 hn) (by omega) (by omega)
        exact absurd (mem_range.2 (ok.lt n (mem_range.1 hn) 0 (by omega))) hn'
    · rw [if_neg h]
      exact sum_eq_zero fun r _ => by rw [if_neg fun hh => h hh.1, mul_zero]

theorem vertex_form2 {m : Steady} {w : SVert} {v : Vtx} {T : Nat → Fin (v.npcen + nDir v) → ℝ}
    (ar : SolvedAround m w v T) (y u p : Nat → ℝ)
    (hp : Balanced v (fun k => u (m.gid (w.cell k))) (fun _ => 0) p) :
    ∑ i ∈ range w.nFaces, (sideP m y (m.face (w.face i)).dn - sideP m y (m.face (w.face i)).up)*
        ∑ k ∈ range w.nCells, w.T i k*u (m.gid (w.cell k)) =
      -∑ i ∈ range v.npcen, ∑ f ∈ range 3, outward (v.sub i) f*(y (m.gid (w.cell i))*
        oneSided (v.sub i) (u (m.gid (w.cell i))) p f) := by
  have wk : ∑ i ∈ range v.npcen, ∑ f ∈ range 3, outward (v.sub i) f*(y (m.gid (w.cell i))*
        oneSided (v.sub i) (u (m.gid (w.cell i))) p f) =
      ∑ r ∈ range w.nFaces, (∑ a ∈ range v.npcen ×ˢ range 3,
        (if vertexFaces v r = (v.sub a.1).face a.2 then
          outward (v.sub a.1) a.2*y (m.gid (w.cell a.1)) else 0))*
        transTimes v T (fun k => u (m.gid (w.cell k))) (fun _ => 0) r := by
    simp only [sum_mul]
    conv_rhs => rw [sum_comm]
    rw [← sum_product', ar.nFaces]
    refine sum_congr rfl fun a ha => ?_
    have h : InRange v a.1 a.2 :=
      ⟨mem_range.1 (mem_product.1 ha).1, mem_range.1 (mem_product.1 ha).2⟩
    rw [← throughFace_eq ar.wf ar.trans hp h (Or.inr ar.dirichlet), throughFace, mul_sum, mul_sum]
    refine sum_congr rfl fun r _ => ?_
    split_ifs <;> ring
  rw [wk, neg_eq_neg_one_mul, mul_sum]
  refine sum_congr rfl fun r hr => ?_
  rw [sides ar y (mem_range.1 hr), transTimes_cells ar u (mem_range.1 hr)]
  ring

/-- **C179.**  On parallelepipeds with symmetric tensors the steady matrix is symmetric, whatever the
corners do. -/
theorem C179_symmetric {m : Steady} {N : Nat} (ok : SteadyOk m N) (one : OneProcess m N)
    (ar : ∀ n < m.numVertices, Regular (m.vert n) →
      ∃ v T, SolvedAround m (m.vert n) v T ∧ SymmetricCells v)
    (s : Sys) (r c : Nat) (hr : r < N) (hc : c < N) :
    (computeSystem m s).K r c = (computeSystem m s).K c r := by
  have key : ∀ w u : Nat → ℝ, ∑ r ∈ range N, w r*∑ c ∈ range N, (computeSystem m s).K r c*u c =
      ∑ r ∈ range N, u r*∑ c ∈ range N, (computeSystem m s).K r c*w c := by
    intro w u
    rw [form2_eq ok one, form2_eq ok one]
    refine sum_congr rfl fun n hn => ?_
    congr 1
    · split_ifs with h
      · obtain ⟨v, T, a, b⟩ := ar n (mem_range.1 hn) h
        obtain ⟨p, hp, -⟩ := C47_face_pressures a.wf a.trans
          (fun k => u (m.gid ((m.vert n).cell k))) (fun _ => 0)
        obtain ⟨q, hq, -⟩ := C47_face_pressures a.wf a.trans
          (fun k => w (m.gid ((m.vert n).cell k))) (fun _ => 0)
        rw [vertex_form2 a w u p hp, vertex_form2 a u w q hq,
          local_symmetric a.wf b a.dirichlet hp hq]
      · rfl
    · split_ifs <;> ring
  have pick : ∀ a < N, ∀ b < N, ∑ r ∈ range N, (if r = a then (1 : ℝ) else 0)*
      ∑ c ∈ range N, (computeSystem m s).K r c*(if c = b then 1 else 0) =
        (computeSystem m s).K a b := by
    intro a ha b hb
    simp only [mul_ite, mul_one, mul_zero, ite_mul, one_mul, zero_mul,
      sum_ite_eq', mem_range, ha, hb, if_true]
  rw [← pick r hr c hc, ← pick c hc r hr]
  exact key _ _

/-! ### Two cubes with different permeabilities, a vertex they share and a corner -/

namespace EnergyWitness

/-- The tensors of the two cubes: an anisotropic one with an off-diagonal entry, and another. -/
def K : Nat → Fin 3 → Fin 3 → ℝ
  | 0 => Witness.K
  | _ => ![![70, 0, 0], ![0, 5, 2], ![0, 2, 1]]

noncomputable def v : Vtx :=
  { Witness.v with
    sub := fun i => { Witness.v.sub i with
      G := fun f k => if h : f < 3 ∧ k < 3 then
        gMatrix (K i) Witness.area Witness.normal Witness.fc (Witness.cen i)
          (fun m => Witness.faces i m) ⟨f, h.1⟩ ⟨k, h.2⟩ else 0 } }

theorem wf : WellFormed v :=
  ⟨Witness.wf.sub_inj, Witness.wf.face_inj, Witness.wf.paired, Witness.wf.bnd_once,
    Witness.wf.internal_face, Witness.wf.link_iff, Witness.wf.link_lt, Witness.wf.link_onto,
    Witness.wf.nBnd_eq, Witness.wf.nFaces_eq⟩

theorem ne_zero {g : Geo.P3} (h : g ≠ ⟨0, 0, 0⟩) : 0 < g.x^2 + g.y^2 + g.z^2 := by
  rcases g with ⟨x, y, z⟩
  by_contra hn
  have : x = 0 ∧ y = 0 ∧ z = 0 := by
    refine ⟨?_, ?_, ?_⟩ <;> nlinarith [sq_nonneg x, sq_nonneg y, sq_nonneg z]
  obtain ⟨rfl, rfl, rfl⟩ := this
  exact h rfl

theorem definite : ∀ i, PositiveDefinite (K i) := by
  intro i g hg
  have := ne_zero hg
  rcases i with _ | i
  · simp only [K, Witness.K, Matrix.cons_val]
    nlinarith [sq_nonneg (g.x + g.y), sq_nonneg g.x, sq_nonneg g.y, sq_nonneg g.z]
  · simp only [K, Matrix.cons_val]
    nlinarith [sq_nonneg (5*g.y + 2*g.z), sq_nonneg (2*g.y + g.z), sq_nonneg g.x, sq_nonneg g.y,
      sq_nonneg g.z]

theorem symmetric : ∀ i a b, K i a b = K i b a := by
  intro i a b
  rcases i with _ | i <;> fin_cases a <;> fin_cases b <;> rfl

theorem shape (i : Nat) (hi : i < v.npcen) :
    Parallelepiped Witness.area Witness.normal Witness.fc (Witness.cen i) (v.sub i) := by
  have hF : ∀ i, (v.sub i).face = Witness.faces i := fun _ => rfl
  have hu : ∀ i, (v.sub i).up = Witness.isUp i := fun _ => rfl
  refine ⟨?_, ?_⟩
  · change i < 2 at hi
    simp only [hF]
    interval_cases i <;>
      norm_num [Witness.faces, Witness.fc, Witness.cen, Geo.dot, Geo.cross, Geo.join]
  · intro f hf g
    change i < 2 at hi
    simp only [hF, hu, outward]
    interval_cases i <;> interval_cases f <;>
      norm_num [Witness.faces, Witness.fc, Witness.cen, Geo.dot, Geo.cross, Geo.join,
        Witness.isUp, Witness.area, Witness.normal]

theorem box : BoxCells v :=
  ⟨K, Witness.area, Witness.normal, Witness.fc, Witness.cen, fun i hi =>
    ⟨definite i, shape i hi, fun ii jj => by simp [v, Witness.v]⟩⟩

theorem symmetricCells : SymmetricCells v :=
  ⟨K, Witness.area, Witness.normal, Witness.fc, Witness.cen, fun i hi =>
    ⟨symmetric i, shape i hi, fun ii jj => by simp [v, Witness.v]⟩⟩

noncomputable def T : Nat → Fin (v.npcen + nDir v) → ℝ := (C177_solvable wf box).1.choose

theorem T_eq : trans v = some T := (C177_solvable wf box).1.choose_spec

noncomputable def edge : SVert :=
  { isLocal := true, nFaces := 5, nBnd := 4, nCells := 2, cell := fun k => k, face := vertexFaces v
    T := fun i j => if h : j < v.npcen + nDir v then T i ⟨j, h⟩ else 0
    bndP := fun _ => 3, subFace := fun _ => 0 }

/-- The corner of the first cube. -/
noncomputable def cvert : SVert :=
  { isLocal := true, nFaces := 3, nBnd := 3, nCells := 1, cell := fun _ => 0, face := fun i => 5 + i
    T := fun i j => if j = 0 then -1 else if j = i + 1 then 1 else 0
    bndP := fun _ => 3, subFace := fun k => 5 + k }

noncomputable def verts : Nat → SVert
  | 0 => edge
  | _ => cvert

def faces : Nat → MFace
  | 0 => ⟨0, 1, true⟩ | 1 => ⟨-1, 0, true⟩ | 2 => ⟨0, -1, true⟩ | 3 => ⟨1, -1, true⟩
  | 4 => ⟨-1, 1, true⟩ | _ => ⟨0, -1, true⟩

noncomputable def m : Steady :=
  { numVertices := 2, numCells := 2, vert := verts, face := faces, isLocal := fun _ => true
    gid := fun c => c, vol := fun _ => 1, forcing := some fun _ => 1 }

theorem first : vertexFaces v 0 = 0 := vertexFaces_pos wf (i := 0) (f := 0) ⟨by decide, by decide⟩

theorem ok : SteadyOk m 2 := by
  refine ⟨?_, ?_, ?_, ?_⟩
  · intro n hn k hk
    change n < 2 at hn
    interval_cases n
    · exact hk
    · exact Nat.zero_lt_two
  · intro n hn
    change n < 2 at hn
    interval_cases n <;> simp [m, verts, edge, cvert]
  · intro n hn i hi
    change n < 2 at hn
    interval_cases n
    · change i < 1 at hi
      have : i = 0 := by omega
      subst this
      change 0 ≤ (faces (vertexFaces v 0)).up ∧ 0 ≤ (faces (vertexFaces v 0)).dn
      rw [first]; decide
    · change i < 0 at hi; omega
  · intro n hn h1 h2
    change n < 2 at hn
    interval_cases n
    · change 2 ≤ 1 at h2; omega
    · refine ⟨rfl, rfl, fun k hk => Or.inl ?_⟩
      interval_cases k <;> simp [m, verts, cvert, faces]

theorem one : OneProcess m 2 := by
  refine ⟨fun _ => rfl, fun c hc => hc, fun n _ i _ => ?_⟩
  change (faces _).up < 2 ∧ (faces _).dn < 2
  generalize (m.vert n).face i = x
  rcases x with _ | _ | _ | _ | _ | x <;> simp [faces]

theorem around0 : SolvedAround m edge v T := by
  refine ⟨wf, T_eq, rfl, rfl, rfl, rfl, fun r _ => rfl, fun i _ j => dif_pos j.2, ?_, ?_⟩
  · rintro i f ⟨h1, h2⟩ hu
    change i < 2 at h1
    interval_cases i <;> interval_cases f <;>
      first | exact absurd hu (by decide) | exact ⟨rfl, by decide⟩
  · rintro i f ⟨h1, h2⟩ hu
    change i < 2 at h1
    interval_cases i <;> interval_cases f <;>
      first | exact absurd hu (by decide) | exact ⟨rfl, by decide⟩

theorem around : ∀ n < m.numVertices, Regular (m.vert n) →
    ∃ v T, SolvedAround m (m.vert n) v T ∧ BoxCells v := by
  intro n hn hR
  change n < 2 at hn
  interval_cases n
  · exact ⟨v, T, around0, box⟩
  · exfalso
    rcases hR with h | h
    · exact absurd h (by simp [m, verts, cvert])
    · exact h (Or.inl (by simp [m, verts, cvert]))

theorem corners : ∀ n < m.numVertices, IsCorner (m.vert n) → 0 ≤ cornerDiagonal m (m.vert n) := by
  intro n hn hC
  change n < 2 at hn
  interval_cases n
  · exact absurd (Or.inr (by simp [m, verts, edge])) hC
  · norm_num [cornerDiagonal, sum_range_succ, m, verts, cvert, faces]

theorem regular : Regular (m.vert 0) := Or.inr (by simp [m, verts, edge])

theorem tied : ∀ r < 2, ∃ c, Tied m c ∧ m.gid c = r := by
  obtain ⟨r, ⟨hr, e⟩, -⟩ := (C47_rows wf).2 0 1 ⟨by decide, by decide⟩
  have h0 : Tied m 0 := Tied.up 0 r 0 (by decide) regular hr
    (by change (faces (vertexFaces v r)).up = _; rw [e]; rfl)
    (by change (faces (vertexFaces v r)).dn < 0; rw [e]; decide)
  have h1 : Tied m 1 := Tied.across 0 0 0 1 (by decide) regular (by simp [m, verts, edge])
    (by change (faces (vertexFaces v 0)).up = _; rw [first]; rfl)
    (by change (faces (vertexFaces v 0)).dn = _; rw [first]; rfl) h0
  intro r hr
  interval_cases r
  · exact ⟨0, h0, rfl⟩
  · exact ⟨1, h1, rfl⟩

end EnergyWitness

/-- The hypotheses of C177 and C178 are met by the two cubes. -/
example : (∃ T, trans EnergyWitness.v = some T) ∧
    work EnergyWitness.v EnergyWitness.T (fun i => i) (fun _ => 0) < 0 ∧
    ∃! u : Fin 2 → ℝ, ∀ r : Fin 2,
      ∑ c : Fin 2, (computeSystem EnergyWitness.m ⟨fun _ _ => 0, fun _ => 0⟩).K r c*u c =
        (computeSystem EnergyWitness.m ⟨fun _ _ => 0, fun _ => 0⟩).F r := by
  refine ⟨(C177_solvable EnergyWitness.wf EnergyWitness.box).1, ?_,
    C178_unique_partial EnergyWitness.ok EnergyWitness.one EnergyWitness.around
      EnergyWitness.corners EnergyWitness.tied _ _⟩
  obtain ⟨h1, h2⟩ := C177_downhill EnergyWitness.wf EnergyWitness.box EnergyWitness.T_eq
    (fun i => i) (fun _ => 0)
  refine lt_of_le_of_ne h1 fun e => ?_
  have := (h2 e).1 0 0 1 0 ⟨by decide, by decide⟩ ⟨by decide, by decide⟩ rfl
  norm_num at this

/-- So are those of C179. -/
example : (computeSystem EnergyWitness.m ⟨fun _ _ => 0, fun _ => 0⟩).K 0 1 =
    (computeSystem EnergyWitness.m ⟨fun _ _ => 0, fun _ => 0⟩).K 1 0 := by
  refine C179_symmetric EnergyWitness.ok EnergyWitness.one (fun n hn hR => ?_) _ 0 1 (by decide)
    (by decide)
  change n < 2 at hn
  interval_cases n
  · exact ⟨EnergyWitness.v, EnergyWitness.T, EnergyWitness.around0, EnergyWitness.symmetricCells⟩
  · exfalso
    rcases hR with h | h
    · exact absurd h (by simp [EnergyWitness.m, EnergyWitness.verts, EnergyWitness.cvert])
    · exact h (Or.inl (by simp [EnergyWitness.m, EnergyWitness.verts, EnergyWitness.cvert]))

namespace CornerTakesWitness

/-- Positive definite, with a strong coupling of the first two directions. -/
def K : Fin 3 → Fin 3 → ℝ := ![![5, -2, 0], ![-2, 1, 0], ![0, 0, 1]]

/-- The three faces of the unit cube at the vertex (1, 1, 1), in the order the mesh chooses. -/
noncomputable def fc : Nat → Geo.P3
  | 0 => ⟨1, 1/2, 1/2⟩ | 1 => ⟨1/2, 1/2, 1⟩ | _ => ⟨1/2, 1, 1/2⟩
noncomputable def cen : Geo.P3 := ⟨1/2, 1/2, 1/2⟩
def normal : Nat → Geo.P3
  | 0 => ⟨1, 0, 0⟩ | 1 => ⟨0, 0, 1⟩ | _ => ⟨0, 1, 0⟩

noncomputable def sub : Sub :=
  { G := fun f k => if h : f < 3 ∧ k < 3 then
      gMatrix K (fun _ => 1/4) normal fc cen (fun m => m) ⟨f, h.1⟩ ⟨k, h.2⟩ else 0
    internal := fun _ => false, up := fun _ => true, link := fun _ => 0, bnd := fun f => f
    face := fun f => f }

noncomputable def corner : Corner :=
  { G := sub.G, face := fun k => k, vface := fun k => k, internal := fun _ => false, fbnd := fun x => x }

theorem ok : CornerOk corner id :=
  ⟨fun _ _ _ _ e => e, fun _ _ _ _ e => e, fun _ _ => rfl, fun _ _ => rfl, fun _ h => h,
    fun _ _ _ _ e => e⟩

noncomputable def T : Nat → Nat → ℝ := (cornerTrans_eq ok (fun _ _ => 0)).choose

theorem T_spec : cornerTrans corner (fun _ _ => 0) = some T ∧ ∀ i < 3,
    T i 0 = corner.G i 0 + corner.G i 1 + corner.G i 2 ∧ ∀ j < 3, T i (j + 1) = -corner.G i j :=
  (cornerTrans_eq ok (fun _ _ => 0)).choose_spec

noncomputable def w : SVert :=
  { isLocal := true, nFaces := 3, nBnd := 3, nCells := 1, cell := fun _ => 0, face := fun i => i
    T := T, bndP := fun _ => 0, subFace := fun k => k }

noncomputable def m : Steady :=
  { numVertices := 1, numCells := 1, vert := fun _ => w, face := fun _ => ⟨0, -1, true⟩
    isLocal := fun _ => true, gid := fun c => c, vol := fun _ => 1, forcing := none }

end CornerTakesWitness

open CornerTakesWitness in
/-- **C178 (why partial).**  A corner of a cube with a positive definite permeability can take away
from the diagonal. -/
theorem C178_corner_takes_away : ∃ (m : Steady) (w : SVert) (c : Corner) (K : Fin 3 → Fin 3 → ℝ)
    (area : Nat → ℝ) (normal fc : Nat → Geo.P3) (cen : Geo.P3) (s : Sub),
    PositiveDefinite K ∧ Parallelepiped area normal fc cen s ∧
    (∀ ii jj : Fin 3, s.G ii jj = gMatrix K area normal fc cen (fun m => s.face m) ii jj) ∧
    c.G = s.G ∧ FromCorner m w c (fun _ => 0) ∧ cornerDiagonal m w < 0 := by
  refine ⟨CornerTakesWitness.m, w, corner, CornerTakesWitness.K, fun _ => 1/4, normal, fc, cen, sub,
    ?_, ⟨?_, ?_⟩, fun ii jj => ?_, rfl,
    ⟨ok, T_spec.1, fun _ _ => le_rfl, fun _ _ => rfl⟩, ?_⟩
  · intro g hg
    have := EnergyWitness.ne_zero hg
    simp only [CornerTakesWitness.K, Matrix.cons_val]
    nlinarith [sq_nonneg (2*g.x - g.y), sq_nonneg (5*g.x - 2*g.y), sq_nonneg g.x, sq_nonneg g.y,
      sq_nonneg g.z]
  · change Geo.dot (Geo.cross (Geo.join cen (fc 0)) (Geo.join cen (fc 1))) (Geo.join cen (fc 2)) < 0
    norm_num [fc, cen, Geo.dot, Geo.cross, Geo.join]
  · intro f hf g
    change (if true = true then (1 : ℝ) else -1)*(1/4*Geo.dot (normal f) g) =
      -Geo.dot (Geo.cross (Geo.join cen (fc ((f + 1) % 3))) (Geo.join cen (fc ((f + 2) % 3)))) g
    interval_cases f <;>
      norm_num [fc, cen, Geo.dot, Geo.cross, Geo.join, normal]
  · simp [sub]
  · have e : cornerDiagonal CornerTakesWitness.m w =
        -(corner.G 0 2 + corner.G 1 2 + corner.G 2 2) := by
      have h : ∀ i < 3, T i 0 + T i 1 + T i 2 = corner.G i 2 := by
        intro i hi
        obtain ⟨a, b⟩ := T_spec.2 i hi
        rw [a, b 0 (by omega), b 1 (by omega)]; ring
      unfold cornerDiagonal
      simp only [CornerTakesWitness.m, w, le_refl, if_true, sum_range_succ, sum_range_zero]
      rw [h 0 (by omega), h 1 (by omega), h 2 (by omega)]
      ring
    rw [e]
    change -(gMatrix CornerTakesWitness.K (fun _ => 1/4) normal fc cen (fun m => m) 0 2 +
      gMatrix CornerTakesWitness.K (fun _ => 1/4) normal fc cen (fun m => m) 1 2 +
      gMatrix CornerTakesWitness.K (fun _ => 1/4) normal fc cen (fun m => m) 2 2) < 0
    have k00 : CornerTakesWitness.K 0 0 = 5 := rfl
    have k01 : CornerTakesWitness.K 0 1 = -2 := rfl
    have k02 : CornerTakesWitness.K 0 2 = 0 := rfl
    have k10 : CornerTakesWitness.K 1 0 = -2 := rfl
    have k11 : CornerTakesWitness.K 1 1 = 1 := rfl
    have k12 : CornerTakesWitness.K 1 2 = 0 := rfl
    have k20 : CornerTakesWitness.K 2 0 = 0 := rfl
    have k21 : CornerTakesWitness.K 2 1 = 0 := rfl
    have k22 : CornerTakesWitness.K 2 2 = 1 := rfl
    norm_num [gMatrix, entryOfG, nuVector, subcellT, Geo.tetVolume, Geo.normalTriangle,
      Geo.cross, Geo.join, Geo.dot, fc, cen, normal, k00, k01, k02, k10, k11, k12, k20, k21, k22]

end TDy.Mpfao.Props
