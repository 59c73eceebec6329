import Verif.Model.MeshFaceGeom
import Verif.Spec.MeshFaceGeom
import Verif.Props.MeshFaceOrient

/-! # C147-C149: distances, areas and centroids of faces -/

namespace TDy.FaceGeom.Props

open TDy TDy.Geo TDy.FaceGeom TDy.FaceGeom.Spec TDy.FaceOrient.Spec
open TDy.FaceOrient.Props (len2_pos dot_eq_ip)

theorem dot_self (v : P3) : dot v v = len2 v := by simp only [dot, len2]; ring

theorem dist_eq (p q : P3) : Spec.dist p q = Real.sqrt (len2 (join p q)) := rfl

theorem plane_side (a b c q : P3) :
    (planeOf a b c).a * q.x + (planeOf a b c).b * q.y + (planeOf a b c).c * q.z + (planeOf a b c).d =
      side a b c q := by
  simp only [planeOf, side, ip, cross, join]; ring

theorem intercept_eq (a b c p q : P3) :
    planeIntercept (planeOf a b c) p q =
      between p q (side a b c p / (side a b c p - side a b c q)) := by
  have e : (planeOf a b c).a * (p.x - q.x) + (planeOf a b c).b * (p.y - q.y) +
      (planeOf a b c).c * (p.z - q.z) = side a b c p - side a b c q := by
    rw [← plane_side, ← plane_side]; ring
  simp only [planeIntercept, plane_side, e, between]

/-- Numbers of different sign: the fraction at which the line changes sign. -/
theorem fraction {s t : ℝ} (h : s * t < 0) : 0 < s / (s - t) ∧ s / (s - t) < 1 ∧ s - t ≠ 0 := by
  rcases mul_neg_iff.1 h with ⟨h1, h2⟩ | ⟨h1, h2⟩
  · have : 0 < s - t := by linarith
    exact ⟨div_pos h1 this, by rw [div_lt_one this]; linarith, this.ne'⟩
  · have : s - t < 0 := by linarith
    exact ⟨div_pos_of_neg_of_neg h1 this, by rw [div_lt_one_of_neg this]; linarith, this.ne⟩

theorem side_between (a b c p q : P3) (r : ℝ) :
    side a b c (between p q r) = side a b c p + r * (side a b c q - side a b c p) := by
  simp only [side, between, ip, join]; ring

theorem side_join (a b c p q : P3) (h : join p q = ⟨0, 0, 0⟩) : side a b c p = side a b c q := by
  simp only [join, P3.mk.injEq] at h
  simp only [side, ip]
  generalize cross (join a b) (join a c) = N
  simp only [join]
  linear_combination -N.x * h.1 - N.y * h.2.1 - N.z * h.2.2

theorem sqrt_scaled (r L : ℝ) (hr : 0 ≤ r) : Real.sqrt (r ^ 2 * L) = r * Real.sqrt L := by
  rw [Real.sqrt_mul (sq_nonneg r), Real.sqrt_sq hr]

/-- The numbers computed from an intercept on the line. -/
theorem innerAttr_between (up dn : P3) (r : ℝ) (h0 : 0 < r) (h1 : r < 1)
    (hne : join up dn ≠ ⟨0, 0, 0⟩) :
    ∃ u : P3, innerAttr up dn (between up dn r) =
        (r * Spec.dist up dn, (1 - r) * Spec.dist up dn, u, r) ∧
      TwoPoint up dn r (r * Spec.dist up dn) ((1 - r) * Spec.dist up dn) r u ∧
      u = ⟨(join up dn).x / Spec.dist up dn, (join up dn).y / Spec.dist up dn,
        (join up dn).z / Spec.dist up dn⟩ := by
  set D := Spec.dist up dn with hD
  have hL := len2_pos hne
  have hDpos : 0 < D := Real.sqrt_pos.2 hL
  have hD2 : D ^ 2 = len2 (join up dn) := Real.sq_sqrt hL.le
  have e1 : Spec.dist up (between up dn r) = r * D := by
    rw [hD, dist_eq, dist_eq, ← sqrt_scaled _ _ h0.le]
    congr 1
    simp only [len2, join, between]; ring
  have e2 : Spec.dist (between up dn r) dn = (1 - r) * D := by
    rw [hD, dist_eq, dist_eq, ← sqrt_scaled _ _ (by linarith)]
    congr 1
    simp only [len2, join, between]; ring
  have e3 : (⟨(join up (between up dn r)).x + (join (between up dn r) dn).x,
      (join up (between up dn r)).y + (join (between up dn r) dn).y,
      (join up (between up dn r)).z + (join (between up dn r) dn).z⟩ : P3) = join up dn := by
    ext <;> simp only [join] <;> ring
  have e3x := congrArg P3.x e3
  have e3y := congrArg P3.y e3
  have e3z := congrArg P3.z e3
  dsimp only at e3x e3y e3z
  refine ⟨⟨(join up dn).x / D, (join up dn).y / D, (join up dn).z / D⟩, ?_, ?_, rfl⟩
  · unfold innerAttr
    dsimp only
    rw [e3, e3x, e3y, e3z, dot_self, dot_self, dot_self, ← dist_eq, ← dist_eq, ← dist_eq, e1, e2, ← hD]
    have : r * D / (r * D + (1 - r) * D) = r := by
      rw [← add_mul, add_sub_cancel, one_mul, mul_div_cancel_right₀ _ hDpos.ne']
    rw [this]
  · refine ⟨⟨h0, h1⟩, e1.symm, e2.symm, by ring, rfl, ?_, ?_⟩
    · simp only [len2] at hD2 ⊢
      field_simp
      linarith
    · rw [← hD]
      ext <;> simp only <;> field_simp

/-! ## C147: faces of meshes from DMPlex -/

/-- An inner triangle that separates the centres of its cells. -/
theorem C147_triangle (x cen : Nat → P3) (fc n : P3) (area : ℝ) (a b c i j : Nat)
    (sep : side (x a) (x b) (x c) (cen i) * side (x a) (x b) (x c) (cen j) < 0) :
    ∃ A r, faceAttr x cen fc n area [a, b, c] ((i : ℤ), (j : ℤ)) = some A ∧
      side (x a) (x b) (x c) (between (cen i) (cen j) r) = 0 ∧
      TwoPoint (cen i) (cen j) r A.distUp A.distDn A.wtUp A.unit ∧
      A.proj = area * ip A.unit n := by
  obtain ⟨h0, h1, h2⟩ := fraction sep
  have hne : join (cen i) (cen j) ≠ ⟨0, 0, 0⟩ := by
    intro e; exact h2 (by rw [side_join _ _ _ _ _ e]; ring)
  obtain ⟨u, e, tp, _⟩ := innerAttr_between (cen i) (cen j) _ h0 h1 hne
  refine ⟨⟨_, _, u, _, area * dot u n⟩, _, ?_, ?_, tp, by rw [dot_eq_ip]⟩
  · unfold faceAttr
    rw [if_neg (by omega)]
    dsimp only
    rw [if_pos (by omega), if_pos (by omega), if_pos (by omega)]
    simp only [plexIntercept, Option.map_some, Int.toNat_natCast, intercept_eq, e]
  · rw [side_between]
    field_simp
    ring

/-- The mean of two points of the line. -/
theorem mid_between (p q : P3) (r s : ℝ) :
    mid (between p q r) (between p q s) = between p q ((r + s) / 2) := by
  have h2 : (2.0 : ℝ) = 2 := by norm_num
  simp only [mid, between, h2]
  ext <;> simp only <;> ring

/-- An inner quadrilateral, plane or not: if the planes of its first and of its last three vertices
both separate the centres, the distances add up to that of the centres. -/
theorem C147_quadrilateral (x cen : Nat → P3) (fc n : P3) (area : ℝ) (a b c d i j : Nat)
    (sep : side (x a) (x b) (x c) (cen i) * side (x a) (x b) (x c) (cen j) < 0)
    (sep' : side (x b) (x c) (x d) (cen i) * side (x b) (x c) (x d) (cen j) < 0) :
    ∃ A r, faceAttr x cen fc n area [a, b, c, d] ((i : ℤ), (j : ℤ)) = some A ∧
      TwoPoint (cen i) (cen j) r A.distUp A.distDn A.wtUp A.unit ∧
      A.proj = area * ip A.unit n := by
  obtain ⟨h0, h1, h2⟩ := fraction sep
  obtain ⟨h0', h1', _⟩ := fraction sep'
  have hne : join (cen i) (cen j) ≠ ⟨0, 0, 0⟩ := by
    intro e; exact h2 (by rw [side_join _ _ _ _ _ e]; ring)
  obtain ⟨u, e, tp, _⟩ := innerAttr_between (cen i) (cen j)
    ((side (x a) (x b) (x c) (cen i) / (side (x a) (x b) (x c) (cen i) - side (x a) (x b) (x c) (cen j))
      + side (x b) (x c) (x d) (cen i) /
        (side (x b) (x c) (x d) (cen i) - side (x b) (x c) (x d) (cen j))) / 2)
    (by linarith) (by linarith) hne
  refine ⟨⟨_, _, u, _, area * dot u n⟩, _, ?_, tp, by rw [dot_eq_ip]⟩
  unfold faceAttr
  rw [if_neg (by omega)]
  dsimp only
  rw [if_pos (by omega), if_pos (by omega), if_pos (by omega)]
  simp only [plexIntercept, Option.map_some, Int.toNat_natCast, intercept_eq, mid_between, e]

theorem side_convex {a b c d u w : P3} (h : Convex a b c d u w) : ∃ s t : ℝ, 0 < s ∧ 0 < t ∧ 1 < s + t ∧
    (∀ q, side a b c q = t * height (cross u w) a q) ∧
    (∀ q, side b c d q = (s + t - 1) * height (cross u w) a q) ∧
    (∀ q, side a d c q = -s * height (cross u w) a q) := by
  obtain ⟨hb, hd, ⟨s, t, hs, ht, hst, hc⟩, ha⟩ := h
  subst hb hd hc
  refine ⟨s, t, hs, ht, hst, fun q => ?_, fun q => ?_, fun q => ?_⟩ <;>
  · simp only [side, height, ip, cross, join, comb]; ring

theorem fraction_scaled (k s t : ℝ) (hk : k ≠ 0) : k * s / (k * s - k * t) = s / (s - t) := by
  rw [← mul_sub, mul_div_mul_left _ _ hk]

theorem height_between (n a p q : P3) (r : ℝ) :
    height n a (between p q r) = height n a p + r * (height n a q - height n a p) := by
  simp only [height, between, ip, join]; ring

theorem height_join (n a p q : P3) (h : join p q = ⟨0, 0, 0⟩) : height n a p = height n a q := by
  simp only [join, P3.mk.injEq] at h
  simp only [height, ip, join]
  linear_combination -n.x * h.1 - n.y * h.2.1 - n.z * h.2.2

/-- An inner plane convex quadrilateral: the line is cut where it meets the face. -/
theorem C147_plane (x cen : Nat → P3) (fc n : P3) (area : ℝ) (a b c d i j : Nat) (u w : P3)
    (hq : Convex (x a) (x b) (x c) (x d) u w)
    (sep : height (cross u w) (x a) (cen i) * height (cross u w) (x a) (cen j) < 0) :
    ∃ A r, faceAttr x cen fc n area [a, b, c, d] ((i : ℤ), (j : ℤ)) = some A ∧
      height (cross u w) (x a) (between (cen i) (cen j) r) = 0 ∧
      TwoPoint (cen i) (cen j) r A.distUp A.distDn A.wtUp A.unit ∧
      A.proj = area * ip A.unit n := by
  obtain ⟨s, t, hs, ht, hst, e1, e2, _⟩ := side_convex hq
  obtain ⟨h0, h1, h2⟩ := fraction sep
  have hne : join (cen i) (cen j) ≠ ⟨0, 0, 0⟩ := by
    intro e; exact h2 (by rw [height_join _ _ _ _ e]; ring)
  obtain ⟨v, e, tp, _⟩ := innerAttr_between (cen i) (cen j) _ h0 h1 hne
  refine ⟨⟨_, _, v, _, area * dot v n⟩, _, ?_, ?_, tp, by rw [dot_eq_ip]⟩
  · unfold faceAttr
    rw [if_neg (by omega)]
    dsimp only
    rw [if_pos (by omega), if_pos (by omega), if_pos (by omega)]
    simp only [plexIntercept, Option.map_some, Int.toNat_natCast, intercept_eq, mid_between, e1, e2,
      fraction_scaled _ _ _ ht.ne', fraction_scaled _ _ _ (by linarith : s + t - 1 ≠ 0),
      add_self_div_two, e]
  · rw [height_between]
    field_simp
    ring

theorem projection_eq (a b c p : P3) :
    join (projectOnPlane (planeOf a b c) p) p =
      ⟨(side a b c p / len2 (cross (join a b) (join a c))) * (cross (join a b) (join a c)).x,
       (side a b c p / len2 (cross (join a b) (join a c))) * (cross (join a b) (join a c)).y,
       (side a b c p / len2 (cross (join a b) (join a c))) * (cross (join a b) (join a c)).z⟩ := by
  have e : (planeOf a b c).a * (planeOf a b c).a + (planeOf a b c).b * (planeOf a b c).b +
      (planeOf a b c).c * (planeOf a b c).c = len2 (cross (join a b) (join a c)) := by
    simp only [planeOf, len2, cross, join]; ring
  simp only [projectOnPlane, plane_side, e, join]
  ext <;> simp only [planeOf, cross] <;> ring

/-- A boundary face: the distance is that of the centre from the plane of the face, the direction is
the normal of that plane into the cell, and all the weight is on the inside. -/
theorem C147_boundary (x cen : Nat → P3) (fc n : P3) (area : ℝ) (a b c j : Nat) (rest : List Nat)
    (z : ℤ) (hz : z < 0) (hr : rest.length ≤ 1)
    (hN : cross (join (x a) (x b)) (join (x a) (x c)) ≠ ⟨0, 0, 0⟩)
    (off : side (x a) (x b) (x c) (cen j) ≠ 0) :
    ∃ A, faceAttr x cen fc n area ([a, b, c] ++ rest) (z, (j : ℤ)) = some A ∧
      A.distUp = 0 ∧ A.wtUp = 0 ∧ 0 < A.distDn ∧ len2 A.unit = 1 ∧
      ip A.unit (join (x a) (x b)) = 0 ∧ ip A.unit (join (x a) (x c)) = 0 ∧
      ip A.unit (join (x a) (cen j)) = A.distDn ∧ A.proj = area * ip A.unit n := by
  set N := cross (join (x a) (x b)) (join (x a) (x c)) with hNdef
  set σ := side (x a) (x b) (x c) (cen j) with hσ
  have hL := len2_pos hN
  set L := Real.sqrt (len2 N) with hLdef
  have hLpos : 0 < L := Real.sqrt_pos.2 hL
  have hL2 : L ^ 2 = len2 N := Real.sq_sqrt hL.le
  have habs : 0 < |σ| := abs_pos.2 off
  have hdd : Real.sqrt (len2 ⟨σ / len2 N * N.x, σ / len2 N * N.y, σ / len2 N * N.z⟩) = |σ| / L := by
    have : len2 ⟨σ / len2 N * N.x, σ / len2 N * N.y, σ / len2 N * N.z⟩ = (|σ| / L) ^ 2 := by
      rw [div_pow, sq_abs, hL2]
      have h0 : len2 N ≠ 0 := hL.ne'
      have : len2 ⟨σ / len2 N * N.x, σ / len2 N * N.y, σ / len2 N * N.z⟩ =
          (σ / len2 N) ^ 2 * len2 N := by simp only [len2]; ring
      rw [this]; field_simp
    rw [this, Real.sqrt_sq (by positivity)]
  have hfa : faceAttr x cen fc n area ([a, b, c] ++ rest) (z, (j : ℤ)) =
      some ⟨0.0, |σ| / L, ⟨σ / len2 N * N.x / (|σ| / L), σ / len2 N * N.y / (|σ| / L),
        σ / len2 N * N.z / (|σ| / L)⟩, 0.0 / (0.0 + |σ| / L),
        area * dot ⟨σ / len2 N * N.x / (|σ| / L), σ / len2 N * N.y / (|σ| / L),
        σ / len2 N * N.z / (|σ| / L)⟩ n⟩ := by
    have key : plexProjection x (cen j) ([a, b, c] ++ rest) =
        some (projectOnPlane (planeOf (x a) (x b) (x c)) (cen j)) := by
      rcases rest with _ | ⟨d, _ | ⟨e, l⟩⟩
      · rfl
      · rfl
      · simp at hr
    unfold faceAttr
    rw [if_neg (by omega)]
    dsimp only
    have hj : (0:ℤ) ≤ (j : ℤ) := by omega
    have hz' : ¬ (0 ≤ z) := by omega
    simp only [hj, hz', false_and, if_false, if_true, Int.toNat_natCast]
    rw [key]
    simp only [Option.map_some, projection_eq, dot_self, ← hNdef, ← hσ, hdd]
  have uv : ∀ t : ℝ, σ / len2 N * t / (|σ| / L) = σ / |σ| / L * t := by
    intro t; rw [← hL2]; field_simp
  have hs : (σ / |σ|) ^ 2 = 1 := by
    rw [div_pow, sq_abs]; exact div_self (pow_ne_zero 2 off)
  refine ⟨_, hfa, by norm_num, by norm_num, by positivity, ?_, ?_, ?_, ?_, by rw [dot_eq_ip]⟩
  · simp only [uv]
    simp only [len2]
    have : (σ / |σ| / L * N.x) ^ 2 + (σ / |σ| / L * N.y) ^ 2 + (σ / |σ| / L * N.z) ^ 2 =
        (σ / |σ|) ^ 2 / L ^ 2 * len2 N := by simp only [len2]; ring
    rw [this, hs, hL2]; field_simp
  · simp only [uv, ip]
    have : ip N (join (x a) (x b)) = 0 := by simp only [hNdef, ip, cross]; ring
    simp only [ip] at this
    linear_combination (σ / |σ| / L) * this
  · simp only [uv, ip]
    have : ip N (join (x a) (x c)) = 0 := by simp only [hNdef, ip, cross]; ring
    simp only [ip] at this
    linear_combination (σ / |σ| / L) * this
  · have : ip N (join (x a) (cen j)) = σ := rfl
    simp only [ip] at this
    simp only [uv, ip]
    have e : σ / |σ| / L * σ = |σ| / L := by
      have : σ * σ = |σ| * |σ| := (abs_mul_abs_self σ).symm
      field_simp
      nlinarith
    rw [← e]
    linear_combination (σ / |σ| / L) * this

/-- Two unit vectors perpendicular to the same face that point to the same side are equal. -/
theorem unit_unique {u w n m p : P3} (h : cross u w ≠ ⟨0, 0, 0⟩) (hn : len2 n = 1) (hm : len2 m = 1)
    (nu : ip n u = 0) (nw : ip n w = 0) (mu : ip m u = 0) (mw : ip m w = 0)
    (np : 0 < ip n p) (mp : 0 < ip m p) : n = m := by
  have hL := len2_pos h
  set N := cross u w with hN
  have par : ∀ v : P3, ip v u = 0 → ip v w = 0 →
      len2 N * v.x = ip v N * N.x ∧ len2 N * v.y = ip v N * N.y ∧ len2 N * v.z = ip v N * N.z := by
    intro v hu hw
    simp only [ip] at hu hw
    -- `N × v = 0`
    have c1 : N.y * v.z - N.z * v.y = 0 := by
      simp only [hN, cross]; linear_combination w.x * hu - u.x * hw
    have c2 : N.z * v.x - N.x * v.z = 0 := by
      simp only [hN, cross]; linear_combination w.y * hu - u.y * hw
    have c3 : N.x * v.y - N.y * v.x = 0 := by
      simp only [hN, cross]; linear_combination w.z * hu - u.z * hw
    simp only [len2, ip]
    refine ⟨?_, ?_, ?_⟩
    · linear_combination -N.y * c3 + N.z * c2
    · linear_combination N.x * c3 - N.z * c1
    · linear_combination -N.x * c2 + N.y * c1
  obtain ⟨a1, a2, a3⟩ := par n nu nw
  obtain ⟨b1, b2, b3⟩ := par m mu mw
  have sq : ∀ v : P3, len2 v = 1 → len2 N * v.x = ip v N * N.x → len2 N * v.y = ip v N * N.y →
      len2 N * v.z = ip v N * N.z → ip v N ^ 2 = len2 N := by
    intro v hv e1 e2 e3
    have : len2 N * len2 N * len2 v = ip v N ^ 2 * len2 N := by
      have : len2 N * len2 N * len2 v =
          (len2 N * v.x) ^ 2 + (len2 N * v.y) ^ 2 + (len2 N * v.z) ^ 2 := by
        simp only [len2]; ring
      rw [this, e1, e2, e3]; simp only [len2]; ring
    rw [hv, mul_one] at this
    exact (mul_right_cancel₀ hL.ne' this).symm
  have s1 := sq n hn a1 a2 a3
  have s2 := sq m hm b1 b2 b3
  have p1 : len2 N * ip n p = ip n N * ip N p := by
    simp only [ip] at a1 a2 a3 ⊢; linear_combination p.x * a1 + p.y * a2 + p.z * a3
  have p2 : len2 N * ip m p = ip m N * ip N p := by
    simp only [ip] at b1 b2 b3 ⊢; linear_combination p.x * b1 + p.y * b2 + p.z * b3
  have q1 : 0 < ip n N * ip N p := by rw [← p1]; exact mul_pos hL np
  have q2 : 0 < ip m N * ip N p := by rw [← p2]; exact mul_pos hL mp
  have e : ip n N = ip m N := by
    have : (ip n N - ip m N) * (ip n N + ip m N) = 0 := by linear_combination s1 - s2
    rcases mul_eq_zero.1 this with h | h
    · linarith
    · exfalso
      have : ip n N = -ip m N := by linarith
      rw [this] at q1
      linarith
  rw [e] at a1 a2 a3
  ext
  · exact mul_left_cancel₀ hL.ne' (a1.trans b1.symm)
  · exact mul_left_cancel₀ hL.ne' (a2.trans b2.symm)
  · exact mul_left_cancel₀ hL.ne' (a3.trans b3.symm)

/-- The projected area of a boundary face is its area, if its normal is the unit normal into the cell
(C143, C144). -/
theorem C147_boundary_area (x cen : Nat → P3) (fc n : P3) (area : ℝ) (a b c j : Nat) (rest : List Nat)
    (z : ℤ) (hz : z < 0) (hr : rest.length ≤ 1)
    (hN : cross (join (x a) (x b)) (join (x a) (x c)) ≠ ⟨0, 0, 0⟩)
    (h1 : len2 n = 1) (h2 : ip n (join (x a) (x b)) = 0) (h3 : ip n (join (x a) (x c)) = 0)
    (h4 : 0 < ip n (join (x a) (cen j))) :
    ∃ A, faceAttr x cen fc n area ([a, b, c] ++ rest) (z, (j : ℤ)) = some A ∧ A.unit = n ∧
      A.proj = area := by
  have off : side (x a) (x b) (x c) (cen j) ≠ 0 := by
    intro e
    -- `cen j` would lie in the plane
    have hL := len2_pos hN
    set N := cross (join (x a) (x b)) (join (x a) (x c)) with hNd
    have hNp : ip N (join (x a) (cen j)) = 0 := e
    simp only [ip] at h2 h3
    have c1 : N.y * n.z - N.z * n.y = 0 := by
      simp only [hNd, cross]
      linear_combination (join (x a) (x c)).x * h2 - (join (x a) (x b)).x * h3
    have c2 : N.z * n.x - N.x * n.z = 0 := by
      simp only [hNd, cross]
      linear_combination (join (x a) (x c)).y * h2 - (join (x a) (x b)).y * h3
    have c3 : N.x * n.y - N.y * n.x = 0 := by
      simp only [hNd, cross]
      linear_combination (join (x a) (x c)).z * h2 - (join (x a) (x b)).z * h3
    have : len2 N * ip n (join (x a) (cen j)) = ip n N * ip N (join (x a) (cen j)) := by
      simp only [len2, ip]
      linear_combination (join (x a) (cen j)).x * (-N.y * c3 + N.z * c2) +
        (join (x a) (cen j)).y * (N.x * c3 - N.z * c1) +
        (join (x a) (cen j)).z * (-N.x * c2 + N.y * c1)
    rw [hNp, mul_zero] at this
    have h5 := mul_pos hL h4
    linarith
  obtain ⟨A, hA, _, _, hd, u1, u2, u3, u4, hp⟩ :=
    C147_boundary x cen fc n area a b c j rest z hz hr hN off
  have e : A.unit = n := unit_unique hN u1 h1 u2 u3 h2 h3 (by rw [u4]; exact hd) h4
  refine ⟨A, hA, e, ?_⟩
  rw [hp, e]
  have : ip n n = 1 := by rw [← h1]; simp only [ip, len2]; ring
  rw [this, mul_one]

open TDy.FaceOrient.Props (square square_convex centres)

/-- Non-vacuity of C147: the unit square between a cell below and one above; as a boundary face of the
cell above. -/
example : side (square 0) (square 1) (square 2) (centres 0) *
      side (square 0) (square 1) (square 2) (centres 1) < 0 ∧
    side (square 1) (square 2) (square 3) (centres 0) *
      side (square 1) (square 2) (square 3) (centres 1) < 0 ∧
    height (cross ⟨1, 0, 0⟩ ⟨0, 1, 0⟩) (square 0) (centres 0) *
      height (cross ⟨1, 0, 0⟩ ⟨0, 1, 0⟩) (square 0) (centres 1) < 0 ∧
    cross (join (square 0) (square 1)) (join (square 0) (square 2)) ≠ ⟨0, 0, 0⟩ ∧
    side (square 0) (square 1) (square 2) (centres 1) ≠ 0 ∧
    len2 ⟨0, 0, 1⟩ = 1 ∧ ip ⟨0, 0, 1⟩ (join (square 0) (square 1)) = 0 ∧
    ip ⟨0, 0, 1⟩ (join (square 0) (square 2)) = 0 ∧
    0 < ip ⟨0, 0, 1⟩ (join (square 0) (centres 1)) := by
  refine ⟨?_, ?_, ?_, ?_, ?_, ?_, ?_, ?_, ?_⟩ <;>
    norm_num [side, height, ip, len2, cross, join, square, centres]

example (fc n : P3) (area : ℝ) :
    ∃ A r, faceAttr square centres fc n area [0, 1, 2, 3] (((0 : Nat) : ℤ), ((1 : Nat) : ℤ)) = some A ∧
      height (cross ⟨1, 0, 0⟩ ⟨0, 1, 0⟩) (square 0) (between (centres 0) (centres 1) r) = 0 ∧
      TwoPoint (centres 0) (centres 1) r A.distUp A.distDn A.wtUp A.unit ∧
      A.proj = area * ip A.unit n :=
  C147_plane square centres fc n area 0 1 2 3 0 1 _ _ square_convex
    (by norm_num [height, ip, cross, join, square, centres])

/-! ## C148: faces of meshes of the library itself -/

theorem cross_rotate (p1 p2 p3 : P3) :
    cross (join p2 p3) (join p2 p1) = cross (join p1 p2) (join p1 p3) := by
  ext <;> simp only [cross, join] <;> ring

/-- The area of a triangle. -/
theorem C148_triangle_area (p1 p2 p3 : P3) : triArea p1 p2 p3 = Geo.triangleArea p1 p2 p3 := by
  unfold triArea Geo.triangleArea
  dsimp only
  rw [cross_rotate, dot_self]
  unfold Geo.norm len2
  congr 2
  ring

theorem triArea_eq (p1 p2 p3 : P3) :
    triArea p1 p2 p3 = Real.sqrt (len2 (cross (join p1 p2) (join p1 p3))) / 2 := by
  unfold triArea
  dsimp only
  rw [cross_rotate, dot_self]
  ring

theorem sqrt_len2_smul (k : ℝ) (v w : P3) (h : w = ⟨k * v.x, k * v.y, k * v.z⟩) :
    Real.sqrt (len2 w) = |k| * Real.sqrt (len2 v) := by
  have : len2 w = |k| ^ 2 * len2 v := by rw [h, sq_abs]; simp only [len2]; ring
  rw [this, sqrt_scaled _ _ (abs_nonneg k)]

/-- The two triangles of a plane convex quadrilateral and the whole. -/
theorem convex_areas {a b c d u w : P3} (h : Convex a b c d u w) : ∃ s t : ℝ, 0 < s ∧ 0 < t ∧ 1 < s + t ∧
    cross (join a b) (join a c) = ⟨t * (cross u w).x, t * (cross u w).y, t * (cross u w).z⟩ ∧
    cross (join a d) (join a c) = ⟨-s * (cross u w).x, -s * (cross u w).y, -s * (cross u w).z⟩ ∧
    Spec.quadArea a b c d = (s + t) * Real.sqrt (len2 (cross u w)) / 2 := by
  obtain ⟨hb, hd, ⟨s, t, hs, ht, hst, hc⟩, ha⟩ := h
  subst hb hd hc
  refine ⟨s, t, hs, ht, hst, ?_, ?_, ?_⟩
  · ext <;> simp only [cross, join, comb] <;> ring
  · ext <;> simp only [cross, join, comb] <;> ring
  · unfold Spec.quadArea
    rw [sqrt_len2_smul (s + t) (cross u w), abs_of_pos (by linarith)]
    ext <;> simp only [cross, join, comb] <;> ring

/-- The area of a plane convex quadrilateral. -/
theorem C148_quadrilateral_area (x : Nat → P3) (a b c d : Nat) (u w : P3)
    (h : Convex (x a) (x b) (x c) (x d) u w) :
    ugridArea x [a, b, c, d] = some (Spec.quadArea (x a) (x b) (x c) (x d)) := by
  obtain ⟨s, t, hs, ht, hst, e1, e2, e3⟩ := convex_areas h
  simp only [ugridArea, triArea_eq, Option.some.injEq]
  rw [e3, sqrt_len2_smul _ _ _ e1, sqrt_len2_smul _ _ _ e2, abs_of_pos ht, abs_neg, abs_of_pos hs]
  ring

/-- The projected area of a triangle. -/
theorem triAttr_eq (p1 p2 p3 up dn n N : P3) (k : ℝ) (hk : k ≠ 0) (hN : N ≠ ⟨0, 0, 0⟩)
    (e : cross (join p1 p2) (join p1 p3) = ⟨k * N.x, k * N.y, k * N.z⟩) :
    triAttr p1 p2 p3 up dn n = (|k| * Real.sqrt (len2 N) / 2, |k| * |ip N n| / 2,
      planeIntercept (planeOf p1 p2 p3) up dn) := by
  have hL : 0 < Real.sqrt (len2 N) := Real.sqrt_pos.2 (len2_pos hN)
  have hk' : 0 < |k| := abs_pos.2 hk
  unfold triAttr
  dsimp only
  rw [cross_rotate, dot_self, sqrt_len2_smul _ _ _ e, e]
  refine Prod.ext ?_ (Prod.ext ?_ rfl)
  · dsimp only; ring
  · dsimp only
    set L := Real.sqrt (len2 N)
    have : 0.5 * (|k| * L) * dot ⟨k * N.x / (|k| * L), k * N.y / (|k| * L), k * N.z / (|k| * L)⟩ n =
        k * ip N n / 2 := by
      rw [dot_eq_ip]; simp only [ip]; field_simp; ring
    rw [this, abs_div, abs_mul]
    norm_num

/-- An inner plane convex quadrilateral of such a mesh. -/
theorem C148_plane (x : Nat → P3) (up dn : P3) (a b c d : Nat) (u w m : P3)
    (hq : Convex (x a) (x b) (x c) (x d) u w)
    (sep : height (cross u w) (x a) up * height (cross u w) (x a) dn < 0)
    (hm : UnitNormal m u w) :
    ∃ A r, innerFace x up dn [a, b, c, d] = some (Spec.quadArea (x a) (x b) (x c) (x d), A) ∧
      height (cross u w) (x a) (between up dn r) = 0 ∧
      TwoPoint up dn r A.distUp A.distDn A.wtUp A.unit ∧
      A.proj = Spec.quadArea (x a) (x b) (x c) (x d) * |ip A.unit m| := by
  obtain ⟨s, t, hs, ht, hst, e1, e2, e3⟩ := convex_areas hq
  obtain ⟨s', t', hs', ht', hst', f1, f2, f3⟩ := side_convex hq
  obtain ⟨h0, h1, h2⟩ := fraction sep
  have hne : join up dn ≠ ⟨0, 0, 0⟩ := by
    intro e; exact h2 (by rw [height_join _ _ _ _ e]; ring)
  obtain ⟨v, e, tp, hv⟩ := innerAttr_between up dn _ h0 h1 hne
  have hL : 0 < Real.sqrt (len2 (cross u w)) := Real.sqrt_pos.2 (len2_pos hq.area)
  have hm' : m = ⟨(cross u w).x / Real.sqrt (len2 (cross u w)),
      (cross u w).y / Real.sqrt (len2 (cross u w)), (cross u w).z / Real.sqrt (len2 (cross u w))⟩ := by
    have hL2 : Real.sqrt (len2 (cross u w)) ^ 2 = len2 (cross u w) :=
      Real.sq_sqrt (len2_pos hq.area).le
    refine unit_unique (p := cross u w) hq.area hm.unit ?_ hm.perpU hm.perpW ?_ ?_ hm.right ?_
    · have e : len2 ⟨(cross u w).x / Real.sqrt (len2 (cross u w)),
          (cross u w).y / Real.sqrt (len2 (cross u w)), (cross u w).z / Real.sqrt (len2 (cross u w))⟩ =
          len2 (cross u w) / Real.sqrt (len2 (cross u w)) ^ 2 := by
        generalize Real.sqrt (len2 (cross u w)) = L
        simp only [len2]; ring
      rw [e, hL2, div_self (len2_pos hq.area).ne']
    · simp only [ip, cross]; ring
    · simp only [ip, cross]; ring
    · have : ip ⟨(cross u w).x / Real.sqrt (len2 (cross u w)),
          (cross u w).y / Real.sqrt (len2 (cross u w)),
          (cross u w).z / Real.sqrt (len2 (cross u w))⟩ (cross u w) =
          len2 (cross u w) / Real.sqrt (len2 (cross u w)) := by
        simp only [ip, len2]; ring
      rw [this]; exact div_pos (len2_pos hq.area) hL
  have hn : (⟨(join up dn).x / Real.sqrt (dot (join up dn) (join up dn)),
      (join up dn).y / Real.sqrt (dot (join up dn) (join up dn)),
      (join up dn).z / Real.sqrt (dot (join up dn) (join up dn))⟩ : P3) = v := by
    rw [dot_self, ← dist_eq, hv]
  refine ⟨⟨_, _, v, _, Spec.quadArea (x a) (x b) (x c) (x d) * |ip v m|⟩, _, ?_, ?_, tp, rfl⟩
  · unfold innerFace
    dsimp only
    rw [hn, triAttr_eq _ _ _ up dn v _ t ht.ne' hq.area e1,
      triAttr_eq _ _ _ up dn v _ (-s) (by linarith : -s ≠ 0) hq.area e2]
    dsimp only
    rw [intercept_eq, intercept_eq, f1, f1, f3, f3, fraction_scaled _ _ _ ht'.ne',
      fraction_scaled _ _ _ (by linarith : -s' ≠ 0), mid_between, add_self_div_two, e]
    dsimp only
    rw [abs_neg, abs_of_pos ht, abs_of_pos hs, e3]
    have hip : |ip v m| = |ip (cross u w) v| / Real.sqrt (len2 (cross u w)) := by
      have : ip v m = ip (cross u w) v / Real.sqrt (len2 (cross u w)) := by
        rw [hm']; simp only [ip]; ring
      rw [this, abs_div, abs_of_pos hL]
    rw [hip]
    refine congrArg some (Prod.ext ?_ ?_)
    · dsimp only; ring
    · simp only [Attr.mk.injEq, true_and]
      field_simp
      ring
  · rw [height_between]
    field_simp
    ring

/-- An inner triangle of such a mesh. -/
theorem C148_triangle (x : Nat → P3) (up dn : P3) (a b c : Nat)
    (sep : side (x a) (x b) (x c) up * side (x a) (x b) (x c) dn < 0) :
    ∃ A r, innerFace x up dn [a, b, c] = some (Geo.triangleArea (x a) (x b) (x c), A) ∧
      side (x a) (x b) (x c) (between up dn r) = 0 ∧
      TwoPoint up dn r A.distUp A.distDn A.wtUp A.unit ∧
      A.proj = |ip (cross (join (x a) (x b)) (join (x a) (x c))) A.unit| / 2 := by
  obtain ⟨h0, h1, h2⟩ := fraction sep
  have hN : cross (join (x a) (x b)) (join (x a) (x c)) ≠ ⟨0, 0, 0⟩ := by
    intro e
    apply h2
    simp only [side, e, ip]; ring
  have hne : join up dn ≠ ⟨0, 0, 0⟩ := by
    intro e; exact h2 (by rw [side_join _ _ _ _ _ e]; ring)
  obtain ⟨v, e, tp, hv⟩ := innerAttr_between up dn _ h0 h1 hne
  have hn : (⟨(join up dn).x / Real.sqrt (dot (join up dn) (join up dn)),
      (join up dn).y / Real.sqrt (dot (join up dn) (join up dn)),
      (join up dn).z / Real.sqrt (dot (join up dn) (join up dn))⟩ : P3) = v := by
    rw [dot_self, ← dist_eq, hv]
  refine ⟨⟨_, _, v, _, |ip (cross (join (x a) (x b)) (join (x a) (x c))) v| / 2⟩, _, ?_, ?_, tp, rfl⟩
  · unfold innerFace
    dsimp only
    rw [hn, triAttr_eq _ _ _ up dn v _ 1 one_ne_zero hN (by simp), intercept_eq, e]
    dsimp only
    rw [← C148_triangle_area, triArea_eq]
    have z : (0.0 : ℝ) = 0 := by norm_num
    rw [abs_one, one_mul, one_mul, z, add_zero, add_zero]
  · rw [side_between]
    field_simp
    ring

/-- Both kinds of mesh give the same numbers for an inner plane convex quadrilateral that is oriented
from the first cell to the second. -/
theorem C148_same_as_plex (x cen : Nat → P3) (fc m : P3) (a b c d i j : Nat) (u w : P3)
    (hq : Convex (x a) (x b) (x c) (x d) u w)
    (sep : height (cross u w) (x a) (cen i) < 0 ∧ 0 < height (cross u w) (x a) (cen j))
    (hm : UnitNormal m u w) :
    ∃ A, innerFace x (cen i) (cen j) [a, b, c, d] =
        some (Spec.quadArea (x a) (x b) (x c) (x d), A) ∧
      faceAttr x cen fc m (Spec.quadArea (x a) (x b) (x c) (x d)) [a, b, c, d] ((i : ℤ), (j : ℤ)) =
        some A := by
  have sp := mul_neg_of_neg_of_pos sep.1 sep.2
  obtain ⟨A, r, hA, hz, tp, hp⟩ := C148_plane x (cen i) (cen j) a b c d u w m hq sp hm
  obtain ⟨B, r', hB, hz', tp', hp'⟩ := C147_plane x cen fc m
    (Spec.quadArea (x a) (x b) (x c) (x d)) a b c d i j u w hq sp
  refine ⟨A, hA, ?_⟩
  rw [hB]
  have hr : r = r' := by
    rw [height_between] at hz hz'
    have : 0 < height (cross u w) (x a) (cen j) - height (cross u w) (x a) (cen i) := by linarith
    apply mul_right_cancel₀ this.ne'
    linarith
  subst hr
  have hne : 0 < Spec.dist (cen i) (cen j) := by
    apply Real.sqrt_pos.2
    have : join (cen i) (cen j) ≠ ⟨0, 0, 0⟩ := by
      intro e
      have := height_join (cross u w) (x a) _ _ e
      linarith [sep.1, sep.2]
    exact len2_pos this
  have hu : A.unit = B.unit := by
    have h := tp.along.symm.trans tp'.along
    simp only [P3.mk.injEq] at h
    ext
    · exact mul_left_cancel₀ hne.ne' h.1
    · exact mul_left_cancel₀ hne.ne' h.2.1
    · exact mul_left_cancel₀ hne.ne' h.2.2
  -- the direction makes an acute angle with the normal
  have hpos : 0 < ip A.unit m := by
    have hn : height m (x a) (cen i) < 0 ∧ 0 < height m (x a) (cen j) := by
      have hL := len2_pos hq.area
      have key : ∀ q, len2 (cross u w) * height m (x a) q =
          ip m (cross u w) * height (cross u w) (x a) q := by
        intro q
        have hu := hm.perpU
        have hw := hm.perpW
        simp only [ip] at hu hw
        set N := cross u w with hN
        have c1 : N.y * m.z - N.z * m.y = 0 := by
          simp only [hN, cross]; linear_combination w.x * hu - u.x * hw
        have c2 : N.z * m.x - N.x * m.z = 0 := by
          simp only [hN, cross]; linear_combination w.y * hu - u.y * hw
        have c3 : N.x * m.y - N.y * m.x = 0 := by
          simp only [hN, cross]; linear_combination w.z * hu - u.z * hw
        simp only [len2, height, ip]
        linear_combination (join (x a) q).x * (-N.y * c3 + N.z * c2) +
          (join (x a) q).y * (N.x * c3 - N.z * c1) + (join (x a) q).z * (-N.x * c2 + N.y * c1)
      constructor
      · have := key (cen i)
        have h2 := mul_neg_of_pos_of_neg hm.right sep.1
        rw [← this] at h2
        by_contra hc
        exact absurd h2 (not_lt.2 (mul_nonneg hL.le (not_lt.1 hc)))
      · have := key (cen j)
        have h2 := mul_pos hm.right sep.2
        rw [← this] at h2
        exact (mul_pos_iff_of_pos_left hL).1 h2
    have : Spec.dist (cen i) (cen j) * ip A.unit m = height m (x a) (cen j) - height m (x a) (cen i) := by
      have h := tp.along
      have e : ip (join (cen i) (cen j)) m = height m (x a) (cen j) - height m (x a) (cen i) := by
        simp only [ip, height, join]; ring
      rw [← e, h]
      simp only [ip]; ring
    have h3 : 0 < Spec.dist (cen i) (cen j) * ip A.unit m := by rw [this]; linarith [hn.1, hn.2]
    exact (mul_pos_iff_of_pos_left hne).1 h3
  congr 1
  obtain ⟨du, dd, un, wt, pr⟩ := A
  obtain ⟨du', dd', un', wt', pr'⟩ := B
  simp only at hu hp hp' hpos
  simp only [Attr.mk.injEq]
  refine ⟨tp'.first.trans tp.first.symm, tp'.second.trans tp.second.symm, hu.symm,
    tp'.weight.trans tp.weight.symm, ?_⟩
  rw [hp, hp', hu, abs_of_pos (by rw [← hu]; exact hpos)]

/-- Non-vacuity of C148: the unit square again. -/
example (fc : P3) :
    ∃ A, innerFace square (centres 0) (centres 1) [0, 1, 2, 3] =
        some (Spec.quadArea (square 0) (square 1) (square 2) (square 3), A) ∧
      faceAttr square centres fc ⟨0, 0, 1⟩ (Spec.quadArea (square 0) (square 1) (square 2) (square 3))
        [0, 1, 2, 3] (((0 : Nat) : ℤ), ((1 : Nat) : ℤ)) = some A :=
  C148_same_as_plex square centres fc ⟨0, 0, 1⟩ 0 1 2 3 0 1 ⟨1, 0, 0⟩ ⟨0, 1, 0⟩ square_convex
    (by norm_num [height, ip, cross, join, square, centres])
    ⟨by norm_num [len2], by norm_num [ip], by norm_num [ip], by norm_num [ip, cross]⟩

/-! ## C149: centroids of faces -/

/-- The centroid is the mean of the vertices; unused entries (-1) do not count. -/
theorem C149_triangle (x : Nat → P3) (a b c : Nat) :
    ugridCentroid x [(a : ℤ), (b : ℤ), (c : ℤ), -1] =
      ⟨((x a).x + (x b).x + (x c).x) / 3, ((x a).y + (x b).y + (x c).y) / 3,
       ((x a).z + (x b).z + (x c).z) / 3⟩ := by
  simp [ugridCentroid]
  norm_num

theorem C149_mean (x : Nat → P3) (a b c d : Nat) :
    ugridCentroid x [(a : ℤ), (b : ℤ), (c : ℤ), (d : ℤ)] = mean4 (x a) (x b) (x c) (x d) := by
  simp [ugridCentroid, mean4]
  norm_num

/-- For a parallelogram the mean of the corners is the centre of mass. -/
theorem C149_parallelogram_partial (x : Nat → P3) (a b c d : Nat) (u w : P3)
    (hb : x b = comb (x a) u w 1 0) (hc : x c = comb (x a) u w 1 1) (hd : x d = comb (x a) u w 0 1) :
    IsCentre (x a) (x b) (x c) (x d) (ugridCentroid x [(a : ℤ), (b : ℤ), (c : ℤ), (d : ℤ)]) := by
  rw [C149_mean]
  have e : len2 (cross (join (x a) (x b)) (join (x a) (x c))) =
      len2 (cross (join (x a) (x c)) (join (x a) (x d))) := by
    rw [hb, hc, hd]; simp only [len2, cross, join, comb]; ring
  intro f hf
  rw [e]
  simp only [List.mem_cons, List.not_mem_nil, or_false] at hf
  rcases hf with rfl | rfl | rfl <;>
  · rw [hb, hc, hd]; simp only [mean4, comb]; ring

/-- Non-vacuity: the unit square is a parallelogram. -/
example : square 1 = comb (square 0) ⟨1, 0, 0⟩ ⟨0, 1, 0⟩ 1 0 ∧
    square 2 = comb (square 0) ⟨1, 0, 0⟩ ⟨0, 1, 0⟩ 1 1 ∧
    square 3 = comb (square 0) ⟨1, 0, 0⟩ ⟨0, 1, 0⟩ 0 1 := by
  refine ⟨?_, ?_, ?_⟩ <;> ext <;> norm_num [comb, square]

/-- A trapezoid. -/
def trapezoid : Nat → P3
  | 0 => ⟨0, 0, 0⟩
  | 1 => ⟨3, 0, 0⟩
  | 2 => ⟨1, 1, 0⟩
  | _ => ⟨0, 1, 0⟩

/-- For other quadrilaterals it is not. -/
theorem C149_trapezoid_violated :
    Convex (trapezoid 0) (trapezoid 1) (trapezoid 2) (trapezoid 3) ⟨3, 0, 0⟩ ⟨0, 1, 0⟩ ∧
    ¬ IsCentre (trapezoid 0) (trapezoid 1) (trapezoid 2) (trapezoid 3)
      (ugridCentroid trapezoid [0, 1, 2, 3]) := by
  refine ⟨⟨?_, ?_, ⟨1/3, 1, by norm_num, by norm_num, by norm_num, ?_⟩, ?_⟩, ?_⟩
  · ext <;> norm_num [comb, trapezoid]
  · ext <;> norm_num [comb, trapezoid]
  · ext <;> norm_num [comb, trapezoid]
  · simp [cross]
  · intro h
    have h1 := h P3.y (by simp)
    have e := C149_mean trapezoid 0 1 2 3
    simp only [Nat.cast_zero, Nat.cast_one, Nat.cast_ofNat] at e
    rw [e] at h1
    have a1 : Real.sqrt (len2 (cross (join (trapezoid 0) (trapezoid 1)) (join (trapezoid 0) (trapezoid 2)))) = 3 := by
      rw [show len2 (cross (join (trapezoid 0) (trapezoid 1)) (join (trapezoid 0) (trapezoid 2))) = 3 ^ 2 by
        norm_num [len2, cross, join, trapezoid]]
      exact Real.sqrt_sq (by norm_num)
    have a2 : Real.sqrt (len2 (cross (join (trapezoid 0) (trapezoid 2)) (join (trapezoid 0) (trapezoid 3)))) = 1 := by
      rw [show len2 (cross (join (trapezoid 0) (trapezoid 2)) (join (trapezoid 0) (trapezoid 3))) = 1 by
        norm_num [len2, cross, join, trapezoid]]
      exact Real.sqrt_one
    rw [a1, a2] at h1
    norm_num [mean4, trapezoid] at h1

end TDy.FaceGeom.Props
