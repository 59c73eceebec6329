import Verif.Model.MeshFaceOrient
import Verif.Spec.MeshFaceOrient
import Verif.Props.Geometry
import Mathlib.Data.List.Nodup
import Mathlib.Tactic.Positivity

/-! # C143-C146: orientation of faces -/

namespace TDy.FaceOrient.Props

open TDy TDy.Geo TDy.FaceOrient TDy.FaceOrient.Spec
open TDy.Geo.Props (norm_eq_len unit_smul SeenFromCentre C87_quadrilateral_normal)

theorem dot_eq_ip (a b : P3) : dot a b = ip a b := by simp only [dot, ip]; ring

theorem height_neg (n q p : P3) : height (neg n) q p = -height n q p := by
  simp only [height, ip, neg]; ring

/-- The successful branches. -/
theorem orient_cases {x cen : Nat → P3} {fc : P3} {f g : Face} (h : orient x cen fc f = some g) :
    0 ≤ f.cells.1 ∧ ∃ n, listNormal x (order x f.verts) = some n ∧
      ((0 < height n fc (cen f.cells.1.toNat) ∧ 0 ≤ f.cells.1 ∧
          g = ⟨order x f.verts, (f.cells.2, f.cells.1), n⟩) ∨
       (height n fc (cen f.cells.1.toNat) ≤ 0 ∧ 0 ≤ f.cells.2 ∧ g = ⟨order x f.verts, f.cells, n⟩) ∨
       (height n fc (cen f.cells.1.toNat) ≤ 0 ∧ f.cells.2 < 0 ∧
          g = ⟨(order x f.verts).reverse, (f.cells.2, f.cells.1), neg n⟩)) := by
  unfold orient at h
  cases e : listNormal x (order x f.verts) with
  | none => simp [e] at h
  | some n =>
    simp only [e, Option.bind_some] at h
    by_cases h1 : f.cells.1 < 0
    · simp [h1] at h
    · rw [if_neg h1] at h
      refine ⟨not_lt.1 h1, n, rfl, ?_⟩
      rw [dot_eq_ip, show ((0.0 : ℝ)) = 0 by norm_num] at h
      by_cases h2 : ip n (join fc (cen f.cells.1.toNat)) > 0
      · rw [if_pos h2] at h
        dsimp only at h
        rw [if_neg h1] at h
        exact Or.inl ⟨h2, not_lt.1 h1, by simpa using h.symm⟩
      · rw [if_neg h2] at h
        by_cases h3 : f.cells.2 < 0
        · rw [if_pos h3] at h
          exact Or.inr (Or.inr ⟨not_lt.1 h2, h3, by simpa using h.symm⟩)
        · rw [if_neg h3] at h
          exact Or.inr (Or.inl ⟨not_lt.1 h2, not_lt.1 h3, by simpa using h.symm⟩)

/-! ## C143: the cells of a face -/

/-- An inner face keeps its two cells; the first of them is not in front of the face. -/
theorem C143_inner (x cen : Nat → P3) (fc : P3) (f g : Face) (a b : Nat)
    (hc : f.cells = ((a : ℤ), (b : ℤ))) (h : orient x cen fc f = some g) :
    (g.cells = ((a : ℤ), (b : ℤ)) ∧ height g.normal fc (cen a) ≤ 0) ∨
    (g.cells = ((b : ℤ), (a : ℤ)) ∧ 0 < height g.normal fc (cen a)) := by
  obtain ⟨_, n, _, ⟨h1, _, rfl⟩ | ⟨h1, _, rfl⟩ | ⟨h1, h2, rfl⟩⟩ := orient_cases h
  · right; rw [hc] at h1 ⊢; exact ⟨rfl, by simpa using h1⟩
  · left; rw [hc] at h1 ⊢; exact ⟨rfl, by simpa using h1⟩
  · rw [hc] at h2; dsimp only at h2; omega

/-- If the face separates the centres of its two cells, its normal points from the first cell to
the second one. -/
theorem C143_first_to_second (x cen : Nat → P3) (fc : P3) (f g : Face) (a b : Nat)
    (hc : f.cells = ((a : ℤ), (b : ℤ))) (h : orient x cen fc f = some g)
    (sep : height g.normal fc (cen a) * height g.normal fc (cen b) < 0) :
    ∃ p q : Nat, g.cells = ((p : ℤ), (q : ℤ)) ∧ (p, q) ∈ [(a, b), (b, a)] ∧
      height g.normal fc (cen p) < 0 ∧ 0 < height g.normal fc (cen q) ∧
      0 < ip g.normal (join (cen p) (cen q)) := by
  have key : ∀ p q : Nat, height g.normal fc (cen p) < 0 → 0 < height g.normal fc (cen q) →
      0 < ip g.normal (join (cen p) (cen q)) := by
    intro p q h1 h2
    have : ip g.normal (join (cen p) (cen q)) =
        height g.normal fc (cen q) - height g.normal fc (cen p) := by
      simp only [height, ip, join]; ring
    linarith
  rcases C143_inner x cen fc f g a b hc h with ⟨e, h1⟩ | ⟨e, h1⟩
  · have h0 : height g.normal fc (cen a) < 0 := by
      rcases lt_or_eq_of_le h1 with h1 | h1
      · exact h1
      · rw [h1, zero_mul] at sep; exact absurd sep (lt_irrefl _)
    have h2 : 0 < height g.normal fc (cen b) := by
      by_contra hn
      exact absurd sep (not_lt.2 (mul_nonneg_of_nonpos_of_nonpos h1 (not_lt.1 hn)))
    exact ⟨a, b, e, by simp, h0, h2, key a b h0 h2⟩
  · have h2 : height g.normal fc (cen b) < 0 := by
      by_contra hn
      exact absurd sep (not_lt.2 (mul_nonneg h1.le (not_lt.1 hn)))
    exact ⟨b, a, e, by simp, h2, h1, key b a h2 h1⟩

/-- A boundary face has the outside as its first cell, and its normal points into the cell. -/
theorem C143_boundary (x cen : Nat → P3) (fc : P3) (f g : Face) (a : Nat) (z : ℤ) (hz : z < 0)
    (hc : f.cells = ((a : ℤ), z)) (h : orient x cen fc f = some g) :
    g.cells = (z, (a : ℤ)) ∧ 0 ≤ height g.normal fc (cen a) := by
  obtain ⟨_, n, _, ⟨h1, _, rfl⟩ | ⟨_, h2, _⟩ | ⟨h1, h2, rfl⟩⟩ := orient_cases h
  · rw [hc] at h1 ⊢; exact ⟨rfl, by simpa using h1.le⟩
  · rw [hc] at h2; dsimp only at h2; omega
  · rw [hc] at h1 ⊢
    refine ⟨rfl, ?_⟩
    rw [height_neg]
    have : height n fc (cen a) ≤ 0 := by simpa using h1
    linarith

/-- Faces with three or four vertices and a first cell are oriented. -/
theorem C143_oriented (x cen : Nat → P3) (fc : P3) (f : Face) (hc : 0 ≤ f.cells.1)
    (hv : f.verts.length = 3 ∨ f.verts.length = 4) : ∃ g, orient x cen fc f = some g := by
  have key : ∀ l : List Nat, l.length = 3 ∨ l.length = 4 →
      ∃ n, listNormal x (order x l) = some n := by
    intro l hl
    rcases l with _ | ⟨a, _ | ⟨b, _ | ⟨c, _ | ⟨d, _ | ⟨e, l⟩⟩⟩⟩⟩ <;> simp at hl
    · exact ⟨_, rfl⟩
    · unfold order; dsimp only; split <;> exact ⟨_, rfl⟩
  obtain ⟨n, hn⟩ := key _ hv
  unfold orient
  simp only [hn, Option.bind_some, if_neg (not_lt.2 hc)]
  split_ifs <;> exact ⟨_, rfl⟩

/-! ## C144: the normal of a face -/

theorem order_perm (x : Nat → P3) (l : List Nat) : (order x l).Perm l := by
  unfold order
  split
  · split
    · exact ((List.Perm.swap _ _ []).cons _).cons _
    · exact List.Perm.refl _
  · exact List.Perm.refl _

/-- The vertices of a face remain its vertices. -/
theorem C144_vertices (x cen : Nat → P3) (fc : P3) (f g : Face) (h : orient x cen fc f = some g) :
    g.verts.Perm f.verts := by
  obtain ⟨_, n, _, ⟨_, _, rfl⟩ | ⟨_, _, rfl⟩ | ⟨_, _, rfl⟩⟩ := orient_cases h
  · exact order_perm _ _
  · exact order_perm _ _
  · exact (List.reverse_perm _).trans (order_perm _ _)

theorem unit_neg (v w : P3) (h : w = neg v) : unit w = neg (unit v) := by
  subst h
  have : Geo.norm (neg v) = Geo.norm v := by simp only [Geo.norm, neg]; congr 1; ring
  unfold unit
  rw [this]
  simp only [neg]
  ext <;> simp only <;> ring

theorem unitNormal_swap (p q r : P3) : unitNormalTriangle p r q = neg (unitNormalTriangle p q r) := by
  refine unit_neg _ _ ?_
  simp only [normalTriangle, cross, join, neg]
  ext <;> simp only <;> ring

theorem unitNormal_reverse (p q r : P3) :
    unitNormalTriangle r q p = neg (unitNormalTriangle p q r) := by
  refine unit_neg _ _ ?_
  simp only [normalTriangle, cross, join, neg]
  ext <;> simp only <;> ring

theorem mean4_reverse (p q r s : P3) : mean4 s r q p = mean4 p q r s := by
  simp only [mean4]; ext <;> simp only <;> ring

theorem normalQuad_reverse (p q r s : P3) : normalQuad s r q p = neg (normalQuad p q r s) := by
  unfold normalQuad
  rw [mean4_reverse p q r s, unitNormal_swap _ r s, unitNormal_swap _ q r, unitNormal_swap _ p q,
    unitNormal_swap _ s p]
  simp only [mean4, neg]
  ext <;> simp only <;> ring

theorem listNormal_reverse (x : Nat → P3) (l : List Nat) (n : P3) (h : listNormal x l = some n) :
    listNormal x l.reverse = some (neg n) := by
  rcases l with _ | ⟨a, _ | ⟨b, _ | ⟨c, _ | ⟨d, _ | ⟨e, l⟩⟩⟩⟩⟩ <;> simp [listNormal] at h
  · subst h; simp [listNormal, unitNormal_reverse (x a) (x b) (x c)]
  · subst h; simp [listNormal, normalQuad_reverse (x a) (x b) (x c) (x d)]

/-- The stored normal is that of the stored vertices in their stored order, also where the list has
been turned round. -/
theorem C144_order_and_normal (x cen : Nat → P3) (fc : P3) (f g : Face)
    (h : orient x cen fc f = some g) :
    (∃ a b c, g.verts = [a, b, c] ∧ g.normal = unitNormalTriangle (x a) (x b) (x c)) ∨
    (∃ a b c d, g.verts = [a, b, c, d] ∧ g.normal = normalQuad (x a) (x b) (x c) (x d)) := by
  have key : listNormal x g.verts = some g.normal := by
    obtain ⟨_, n, hn, ⟨_, _, rfl⟩ | ⟨_, _, rfl⟩ | ⟨_, _, rfl⟩⟩ := orient_cases h
    · exact hn
    · exact hn
    · exact listNormal_reverse x _ n hn
  generalize g.normal = n at key ⊢
  generalize g.verts = l at key ⊢
  rcases l with _ | ⟨a, _ | ⟨b, _ | ⟨c, _ | ⟨d, _ | ⟨e, l⟩⟩⟩⟩⟩ <;> simp [listNormal] at key
  · exact Or.inl ⟨a, b, c, rfl, key.symm⟩
  · exact Or.inr ⟨a, b, c, d, rfl, key.symm⟩

theorem norm_sq (v : P3) : Geo.norm v ^ 2 = len2 v := by
  unfold Geo.norm len2
  rw [Real.sq_sqrt (by nlinarith [mul_self_nonneg v.x, mul_self_nonneg v.y, mul_self_nonneg v.z])]
  ring

theorem len2_pos {v : P3} (h : v ≠ ⟨0, 0, 0⟩) : 0 < len2 v := by
  have h0 : 0 ≤ len2 v := by unfold len2; positivity
  refine lt_of_le_of_ne h0 fun e => h ?_
  unfold len2 at e
  have h1 := sq_nonneg v.x
  have h2 := sq_nonneg v.y
  have h3 := sq_nonneg v.z
  have e1 : v.x ^ 2 = 0 := by linarith
  have e2 : v.y ^ 2 = 0 := by linarith
  have e3 : v.z ^ 2 = 0 := by linarith
  ext
  · exact pow_eq_zero_iff (by norm_num) |>.1 e1
  · exact pow_eq_zero_iff (by norm_num) |>.1 e2
  · exact pow_eq_zero_iff (by norm_num) |>.1 e3

theorem norm_pos {v : P3} (h : v ≠ ⟨0, 0, 0⟩) : 0 < Geo.norm v := by
  have h1 := norm_sq v
  have h2 := len2_pos h
  have h3 : 0 ≤ Geo.norm v := Real.sqrt_nonneg _
  rcases lt_or_eq_of_le h3 with h | h
  · exact h
  · rw [← h] at h1; simp at h1; linarith

/-- The unit vector along the cross product. -/
theorem unit_cross (u w : P3) (h : cross u w ≠ ⟨0, 0, 0⟩) : UnitNormal (unit (cross u w)) u w := by
  have hp := norm_pos h
  have hs := norm_sq (cross u w)
  generalize hk : Geo.norm (cross u w) = k at hp hs
  have hk0 : k ≠ 0 := hp.ne'
  unfold unit
  rw [hk]
  constructor
  · simp only [len2] at hs ⊢
    field_simp
    linarith
  · simp only [ip, cross]; field_simp; ring
  · simp only [ip, cross]; field_simp; ring
  · have : ip ⟨(cross u w).x / k, (cross u w).y / k, (cross u w).z / k⟩ (cross u w) = k := by
      simp only [len2] at hs
      simp only [ip]
      field_simp
      linarith
    rw [this]; exact hp

/-- A convex quadrilateral is convex when its corners are listed backwards. -/
theorem _root_.TDy.FaceOrient.Spec.Convex.reverse {a b c d u w : P3} (h : Convex a b c d u w) :
    Convex d c b a (join d c) (join d a) := by
  obtain ⟨hb, hd, ⟨s, t, hs, ht, hst, hc⟩, ha⟩ := h
  subst hb hd hc
  have hs' := hs.ne'
  constructor
  · ext <;> simp only [comb, join] <;> ring
  · ext <;> simp only [comb, join] <;> ring
  · refine ⟨1 / s, (s + t - 1) / s, by positivity, div_pos (by linarith) hs, ?_, ?_⟩
    · rw [← add_div, lt_div_iff₀ hs]; linarith
    · ext <;> simp only [comb, join] <;> field_simp <;> ring
  · intro e
    apply ha
    have e' : cross (join (comb a u w 0 1) (comb a u w s t)) (join (comb a u w 0 1) a) =
        ⟨-s * (cross u w).x, -s * (cross u w).y, -s * (cross u w).z⟩ := by
      ext <;> simp only [cross, comb, join] <;> ring
    rw [e'] at e
    simp only [P3.mk.injEq, mul_eq_zero, neg_eq_zero, hs', false_or] at e
    ext
    · exact e.1
    · exact e.2.1
    · exact e.2.2

/-- The normal the code computes of a convex quadrilateral. -/
theorem normalQuad_convex {a b c d u w : P3} (h : Convex a b c d u w) :
    normalQuad a b c d = unit (cross u w) := by
  obtain ⟨hb, hd, ⟨s, t, hs, ht, hst, hc⟩, ha⟩ := h
  subst hb hd hc
  refine C87_quadrilateral_normal _ _ _ _ _ ((1 + t) / 4) ((2 * t + s - 1) / 4)
    ((2 * s + t - 1) / 4) ((1 + s) / 4) ⟨?_, ?_, ?_, ?_⟩ (by linarith) (by linarith) (by linarith)
    (by linarith)
  all_goals
    ext <;> simp only [normalTriangle, cross, join, mean4, comb] <;> ring

theorem triangle_pos {p q r n : P3} {k : ℝ} (hk : 0 < k)
    (h : normalTriangle p q r = ⟨k * n.x, k * n.y, k * n.z⟩) :
    unitNormalTriangle p q r = unit n := by
  unfold unitNormalTriangle; rw [h, unit_smul n k hk]

theorem triangle_neg {p q r n : P3} {k : ℝ} (hk : 0 < k)
    (h : normalTriangle p q r = ⟨-k * n.x, -k * n.y, -k * n.z⟩) :
    unitNormalTriangle p q r = neg (unit n) := by
  unfold unitNormalTriangle
  rw [h, ← unit_smul n k hk]
  refine unit_neg _ _ ?_
  simp only [neg]; ext <;> simp only <;> ring

theorem dot_unit {n : P3} (h : n ≠ ⟨0, 0, 0⟩) : dot (unit n) (unit n) = 1 := by
  have hp := norm_pos h
  have hs := norm_sq n
  rw [dot_eq_ip]
  simp only [ip, unit]
  simp only [len2] at hs
  field_simp
  linarith

theorem dot_neg_right (a b : P3) : dot a (neg b) = -dot a b := by simp only [dot, neg]; ring

/-- Corners listed in order stay as they are. -/
theorem order_convex (x : Nat → P3) (a b c d : Nat) (u w : P3)
    (h : Convex (x a) (x b) (x c) (x d) u w) : order x [a, b, c, d] = [a, b, c, d] := by
  obtain ⟨hb, hd, ⟨s, t, hs, ht, hst, hc⟩, ha⟩ := h
  have e1 : unitNormalTriangle (x a) (x b) (x c) = unit (cross u w) := by
    refine triangle_pos ht ?_
    rw [hb, hc]
    ext <;> simp only [normalTriangle, cross, join, comb] <;> ring
  have e2 : unitNormalTriangle (x b) (x c) (x d) = unit (cross u w) := by
    refine triangle_pos (k := s + t - 1) (by linarith) ?_
    rw [hb, hc, hd]
    ext <;> simp only [normalTriangle, cross, join, comb] <;> ring
  simp only [order, e1, e2, dot_unit ha]
  norm_num

/-- The last two corners swapped are put right. -/
theorem order_swapped (x : Nat → P3) (a b c d : Nat) (u w : P3)
    (h : Convex (x a) (x b) (x c) (x d) u w) : order x [a, b, d, c] = [a, b, c, d] := by
  obtain ⟨hb, hd, ⟨s, t, hs, ht, hst, hc⟩, ha⟩ := h
  have e1 : unitNormalTriangle (x a) (x b) (x d) = unit (cross u w) := by
    refine triangle_pos (k := 1) one_pos ?_
    rw [hb, hd]
    ext <;> simp only [normalTriangle, cross, join, comb] <;> ring
  have e2 : unitNormalTriangle (x b) (x d) (x c) = neg (unit (cross u w)) := by
    refine triangle_neg (k := s + t - 1) (by linarith) ?_
    rw [hb, hc, hd]
    ext <;> simp only [normalTriangle, cross, join, comb] <;> ring
  simp only [order, e1, e2, dot_neg_right, dot_unit ha]
  norm_num

/-- The oriented face of a plane convex quadrilateral, listed in order or with the last two corners
swapped: its vertices are in order and its normal is the unit normal on the side from which that
order is anticlockwise. -/
theorem C144_quadrilateral_partial (x cen : Nat → P3) (fc : P3) (f g : Face) (a b c d : Nat) (u w : P3)
    (hv : f.verts = [a, b, c, d] ∨ f.verts = [a, b, d, c])
    (hq : Convex (x a) (x b) (x c) (x d) u w) (h : orient x cen fc f = some g) :
    ∃ p q r s u' w', g.verts = [p, q, r, s] ∧ Convex (x p) (x q) (x r) (x s) u' w' ∧
      UnitNormal g.normal u' w' := by
  have ho : order x f.verts = [a, b, c, d] := by
    rcases hv with e | e <;> rw [e]
    · exact order_convex x a b c d u w hq
    · exact order_swapped x a b c d u w hq
  obtain ⟨_, n, hn, hg⟩ := orient_cases h
  rw [ho] at hn hg
  simp only [listNormal, Option.some.injEq] at hn
  have fwd : UnitNormal n u w := by
    rw [← hn, normalQuad_convex hq]; exact unit_cross _ _ hq.area
  rcases hg with ⟨_, _, rfl⟩ | ⟨_, _, rfl⟩ | ⟨_, _, rfl⟩
  · exact ⟨a, b, c, d, u, w, rfl, hq, fwd⟩
  · exact ⟨a, b, c, d, u, w, rfl, hq, fwd⟩
  · refine ⟨d, c, b, a, _, _, rfl, hq.reverse, ?_⟩
    have : neg n = unit (cross (join (x d) (x c)) (join (x d) (x a))) := by
      rw [← hn, ← normalQuad_reverse, normalQuad_convex hq.reverse]
    dsimp only
    rw [this]
    exact unit_cross _ _ hq.reverse.area

/-- The oriented face of a triangle. -/
theorem C144_triangle (x cen : Nat → P3) (fc : P3) (f g : Face) (a b c : Nat)
    (hv : f.verts = [a, b, c]) (hq : cross (join (x a) (x b)) (join (x a) (x c)) ≠ ⟨0, 0, 0⟩)
    (h : orient x cen fc f = some g) :
    ∃ p q r, g.verts = [p, q, r] ∧
      UnitNormal g.normal (join (x p) (x q)) (join (x p) (x r)) := by
  obtain ⟨_, n, hn, hg⟩ := orient_cases h
  have ho : order x f.verts = [a, b, c] := by rw [hv]; rfl
  rw [ho] at hn hg
  simp only [listNormal, Option.some.injEq] at hn
  have fwd : UnitNormal n (join (x a) (x b)) (join (x a) (x c)) := by
    rw [← hn]; exact unit_cross _ _ hq
  rcases hg with ⟨_, _, rfl⟩ | ⟨_, _, rfl⟩ | ⟨_, _, rfl⟩
  · exact ⟨a, b, c, rfl, fwd⟩
  · exact ⟨a, b, c, rfl, fwd⟩
  · refine ⟨c, b, a, rfl, ?_⟩
    have : neg n = unit (cross (join (x c) (x b)) (join (x c) (x a))) := by
      rw [← hn, ← unitNormal_reverse]; rfl
    dsimp only
    rw [this]
    refine unit_cross _ _ fun e => hq ?_
    have e' : cross (join (x c) (x b)) (join (x c) (x a)) =
        neg (cross (join (x a) (x b)) (join (x a) (x c))) := by
      ext <;> simp only [cross, join, neg] <;> ring
    rw [e'] at e
    simp only [neg, P3.mk.injEq, neg_eq_zero] at e
    ext
    · exact e.1
    · exact e.2.1
    · exact e.2.2

/-! ## C145: the order of the vertices -/

/-- Swapping the last two corners of a convex quadrilateral in the list changes nothing about the
oriented face. -/
theorem C145_swapped_partial (x cen : Nat → P3) (fc : P3) (a b c d : Nat) (u w : P3) (cells : ℤ × ℤ)
    (n n' : P3) (hq : Convex (x a) (x b) (x c) (x d) u w) :
    orient x cen fc ⟨[a, b, d, c], cells, n⟩ = orient x cen fc ⟨[a, b, c, d], cells, n'⟩ := by
  unfold orient
  dsimp only
  rw [order_convex x a b c d u w hq, order_swapped x a b c d u w hq]

/-- Corners listed crosswise stay crosswise. -/
theorem C145_crosswise_violated (x cen : Nat → P3) (fc : P3) (a b c d : Nat) (u w : P3)
    (cells : ℤ × ℤ) (n : P3) (g : Face) (hq : Convex (x a) (x b) (x c) (x d) u w)
    (h : orient x cen fc ⟨[a, c, b, d], cells, n⟩ = some g) :
    g.verts = [a, c, b, d] ∨ g.verts = [d, b, c, a] := by
  obtain ⟨hb, hd, ⟨s, t, hs, ht, hst, hc⟩, ha⟩ := hq
  have e1 : unitNormalTriangle (x a) (x c) (x b) = neg (unit (cross u w)) := by
    refine triangle_neg ht ?_
    rw [hb, hc]
    ext <;> simp only [normalTriangle, cross, join, comb] <;> ring
  have e2 : unitNormalTriangle (x c) (x b) (x d) = neg (unit (cross u w)) := by
    refine triangle_neg (k := s + t - 1) (by linarith) ?_
    rw [hb, hc, hd]
    ext <;> simp only [normalTriangle, cross, join, comb] <;> ring
  have nn : dot (neg (unit (cross u w))) (neg (unit (cross u w))) = 1 := by
    rw [← dot_unit ha]; simp only [dot, neg]; ring
  have ho : order x [a, c, b, d] = [a, c, b, d] := by
    simp only [order, e1, e2, nn]
    norm_num
  obtain ⟨_, m, _, ⟨_, _, rfl⟩ | ⟨_, _, rfl⟩ | ⟨_, _, rfl⟩⟩ := orient_cases h
  · left; simpa using ho
  · left; simpa using ho
  · right; simp [ho]

/-- Of a parallelogram listed crosswise two of the four triangles have no area: the code divides
zero by zero. -/
theorem C145_crosswise_normal_violated (a b c d u w : P3)
    (hb : b = comb a u w 1 0) (hd : d = comb a u w 0 1) (hc : c = comb a u w 1 1) :
    Geo.norm (normalTriangle (mean4 a c b d) a c) = 0 ∧
    Geo.norm (normalTriangle (mean4 a c b d) b d) = 0 := by
  subst hb hd hc
  have z : Geo.norm ⟨0, 0, 0⟩ = 0 := by simp [Geo.norm]
  have e1 : normalTriangle (mean4 a (comb a u w 1 1) (comb a u w 1 0) (comb a u w 0 1)) a
      (comb a u w 1 1) = ⟨0, 0, 0⟩ := by
    ext <;> simp only [normalTriangle, cross, join, mean4, comb] <;> ring
  have e2 : normalTriangle (mean4 a (comb a u w 1 1) (comb a u w 1 0) (comb a u w 0 1))
      (comb a u w 1 0) (comb a u w 0 1) = ⟨0, 0, 0⟩ := by
    ext <;> simp only [normalTriangle, cross, join, mean4, comb] <;> ring
  rw [e1, e2]
  exact ⟨z, z⟩

/-! ## A saddle -/

/-- The corners of a quadrilateral around the origin, alternately `k` above and below. -/
def saddle (k : ℝ) : Nat → P3
  | 0 => ⟨1, 0, k⟩
  | 1 => ⟨0, 1, -k⟩
  | 2 => ⟨-1, 0, k⟩
  | _ => ⟨0, -1, -k⟩

theorem unit_of_norm {v : P3} {r : ℝ} (h : Geo.norm v = r) :
    Geo.unit v = ⟨v.x / r, v.y / r, v.z / r⟩ := by rw [← h]; rfl

/-- The normal of a face that is not plane is shorter than 1, whatever the cells. -/
theorem C144_saddle_violated (k : ℝ) (hk : k ≠ 0) (cen : Nat → P3) (fc : P3) (cells : ℤ × ℤ)
    (n : P3) (g : Face) (h : orient (saddle k) cen fc ⟨[0, 1, 2, 3], cells, n⟩ = some g) :
    len2 g.normal = 1 / (1 + 2 * k ^ 2) ∧ len2 g.normal < 1 := by
  have hpos : (0:ℝ) < 1 + 2 * k ^ 2 := by positivity
  set r := Real.sqrt (1 + 2 * k ^ 2) with hr
  have hr2 : r ^ 2 = 1 + 2 * k ^ 2 := Real.sq_sqrt hpos.le
  have hr0 : 0 < r := Real.sqrt_pos.2 hpos
  have m0 : mean4 (saddle k 0) (saddle k 1) (saddle k 2) (saddle k 3) = ⟨0, 0, 0⟩ := by
    ext <;> simp only [mean4, saddle] <;> ring
  have t1 : normalTriangle ⟨0, 0, 0⟩ (saddle k 0) (saddle k 1) = ⟨-k, k, 1⟩ := by
    ext <;> simp only [normalTriangle, cross, join, saddle] <;> ring
  have t2 : normalTriangle ⟨0, 0, 0⟩ (saddle k 1) (saddle k 2) = ⟨k, k, 1⟩ := by
    ext <;> simp only [normalTriangle, cross, join, saddle] <;> ring
  have t3 : normalTriangle ⟨0, 0, 0⟩ (saddle k 2) (saddle k 3) = ⟨k, -k, 1⟩ := by
    ext <;> simp only [normalTriangle, cross, join, saddle] <;> ring
  have t4 : normalTriangle ⟨0, 0, 0⟩ (saddle k 3) (saddle k 0) = ⟨-k, -k, 1⟩ := by
    ext <;> simp only [normalTriangle, cross, join, saddle] <;> ring
  have n1 : Geo.norm ⟨-k, k, 1⟩ = r := by rw [hr]; simp only [Geo.norm]; congr 1; ring
  have n2 : Geo.norm ⟨k, k, 1⟩ = r := by rw [hr]; simp only [Geo.norm]; congr 1; ring
  have n3 : Geo.norm ⟨k, -k, 1⟩ = r := by rw [hr]; simp only [Geo.norm]; congr 1; ring
  have n4 : Geo.norm ⟨-k, -k, 1⟩ = r := by rw [hr]; simp only [Geo.norm]; congr 1; ring
  have q : normalQuad (saddle k 0) (saddle k 1) (saddle k 2) (saddle k 3) = ⟨0, 0, 1 / r⟩ := by
    unfold normalQuad unitNormalTriangle
    rw [m0, t1, t2, t3, t4, unit_of_norm n1, unit_of_norm n2, unit_of_norm n3, unit_of_norm n4]
    ext <;> simp only [mean4] <;> ring
  have ho : order (saddle k) [0, 1, 2, 3] = [0, 1, 2, 3] := by
    have a1 : normalTriangle (saddle k 0) (saddle k 1) (saddle k 2) = ⟨0, 4 * k, 2⟩ := by
      ext <;> simp only [normalTriangle, cross, join, saddle] <;> ring
    have a2 : normalTriangle (saddle k 1) (saddle k 2) (saddle k 3) = ⟨4 * k, 0, 2⟩ := by
      ext <;> simp only [normalTriangle, cross, join, saddle] <;> ring
    have : ¬ dot (unitNormalTriangle (saddle k 0) (saddle k 1) (saddle k 2))
        (unitNormalTriangle (saddle k 1) (saddle k 2) (saddle k 3)) < 0.0 := by
      unfold unitNormalTriangle
      rw [a1, a2]
      have p1 : 0 ≤ Geo.norm ⟨0, 4 * k, 2⟩ := Real.sqrt_nonneg _
      have p2 : 0 ≤ Geo.norm ⟨4 * k, 0, 2⟩ := Real.sqrt_nonneg _
      simp only [dot, Geo.unit, zero_div, zero_mul, mul_zero, add_zero, zero_add]
      have : 0 ≤ 2 / Geo.norm ⟨0, 4 * k, 2⟩ * (2 / Geo.norm ⟨4 * k, 0, 2⟩) := by positivity
      norm_num
      linarith
    simp only [order, if_neg this]
  have hl : ∀ m : P3, m = ⟨0, 0, 1 / r⟩ ∨ m = neg ⟨0, 0, 1 / r⟩ → len2 m = 1 / (1 + 2 * k ^ 2) := by
    rintro m (rfl | rfl)
    · rw [← hr2]; simp only [len2]; field_simp; ring
    · rw [← hr2]; simp only [len2, neg]; field_simp; ring
  have e : len2 g.normal = 1 / (1 + 2 * k ^ 2) := by
    apply hl
    obtain ⟨_, m, hm, hg⟩ := orient_cases h
    simp only [ho, listNormal, q, Option.some.injEq] at hm
    rcases hg with ⟨_, _, rfl⟩ | ⟨_, _, rfl⟩ | ⟨_, _, rfl⟩
    · exact Or.inl hm.symm
    · exact Or.inl hm.symm
    · exact Or.inr (by rw [← hm])
  refine ⟨e, ?_⟩
  rw [e, div_lt_one hpos]
  have : 0 < k ^ 2 := by positivity
  linarith

/-! ## C146: the parts of a face -/

theorem position_some {l : List Nat} {v k : Nat} (h : position l v = some k) : l[k]? = some v := by
  obtain ⟨hk, e, _⟩ := List.findIdx?_eq_some_iff_getElem.1 h
  rw [List.getElem?_eq_getElem hk]
  simpa using e

/-- The numbers of local vertices with several cells: each is the place of the vertex in the list of
the face, so that no two vertices have the same part. -/
theorem C146_several_cells_partial (x cen : Nat → P3) (fc : P3) (f g : Face)
    (h : orient x cen fc f = some g) (v : Nat) (hv : v ∈ f.verts) :
    (∃ k, k < g.verts.length ∧ subface true true f.verts g.verts v = some k ∧
      g.verts[k]? = some v) ∧
    ∀ v', subface true true f.verts g.verts v' = subface true true f.verts g.verts v → v' = v := by
  have hg : v ∈ g.verts := (C144_vertices x cen fc f g h).mem_iff.2 hv
  have hs : ∃ k, position g.verts v = some k := by
    rw [← Option.isSome_iff_exists]
    simp only [position, List.findIdx?_isSome, List.any_eq_true]
    exact ⟨v, hg, by simp⟩
  obtain ⟨k, hk⟩ := hs
  have hget := position_some hk
  refine ⟨⟨k, ?_, by simpa [subface] using hk, hget⟩, ?_⟩
  · by_contra hn
    rw [List.getElem?_eq_none (not_lt.1 hn)] at hget
    simp at hget
  · intro v' e
    simp only [subface, Bool.and_self, if_true, hk] at e
    have := position_some e
    rw [hget] at this
    simpa using this.symm

/-- A corner of the domain, on a boundary face listed with its normal out of the domain: its number
belongs to another vertex. -/
theorem C146_corner_violated (x cen : Nat → P3) (fc : P3) (a b c d p : Nat) (z : ℤ) (hz : z < 0)
    (u w n : P3) (hnd : [a, b, c, d].Nodup) (hq : Convex (x a) (x b) (x c) (x d) u w)
    (hout : height (cross u w) fc (cen p) < 0) :
    ∃ g, orient x cen fc ⟨[a, b, c, d], ((p : ℤ), z), n⟩ = some g ∧ g.verts = [d, c, b, a] ∧
      subface false true [a, b, c, d] g.verts a = some 0 ∧ g.verts[0]? = some d ∧
      subface true true [a, b, c, d] g.verts d = some 0 ∧ a ≠ d ∧
      (∀ v, subface true true [a, b, c, d] g.verts v ≠ some 3 ∨ v = a) := by
  have ho := order_convex x a b c d u w hq
  have hn : listNormal x [a, b, c, d] = some (Geo.unit (cross u w)) := by
    simp only [listNormal, normalQuad_convex hq]
  have hneg : ¬ dot (Geo.unit (cross u w)) (join fc (cen p)) > 0.0 := by
    have hp := norm_pos hq.area
    have : dot (Geo.unit (cross u w)) (join fc (cen p)) =
        height (cross u w) fc (cen p) / Geo.norm (cross u w) := by
      rw [dot_eq_ip]; simp only [height, ip, Geo.unit]; ring
    rw [this]
    have := div_neg_of_neg_of_pos hout hp
    norm_num
    linarith
  refine ⟨⟨[d, c, b, a], (z, (p : ℤ)), neg (Geo.unit (cross u w))⟩, ?_, rfl, ?_, rfl, ?_, ?_, ?_⟩
  · unfold orient
    dsimp only
    rw [ho, hn]
    simp only [Option.bind_some]
    rw [if_neg (by omega), Int.toNat_natCast, if_neg hneg]
    dsimp only
    rw [if_pos hz]
    rfl
  · simp [subface, position, List.findIdx?_cons]
  · simp [subface, position, List.findIdx?_cons]
  · rintro rfl; simp at hnd
  · intro v
    simp only [subface, Bool.and_self, if_true]
    by_cases hv : position [d, c, b, a] v = some 3
    · right
      have := position_some hv
      simpa using this.symm
    · exact Or.inl hv

/-! ## The hypotheses are met -/

/-- The unit square in the plane z = 0. -/
def square : Nat → P3
  | 0 => ⟨0, 0, 0⟩
  | 1 => ⟨1, 0, 0⟩
  | 2 => ⟨1, 1, 0⟩
  | _ => ⟨0, 1, 0⟩

theorem square_convex : Convex (square 0) (square 1) (square 2) (square 3) ⟨1, 0, 0⟩ ⟨0, 1, 0⟩ := by
  refine ⟨?_, ?_, ⟨1, 1, by norm_num, by norm_num, by norm_num, ?_⟩, ?_⟩
  · ext <;> norm_num [comb, square]
  · ext <;> norm_num [comb, square]
  · ext <;> norm_num [comb, square]
  · simp [cross]

/-- Cell 0 below the square, cell 1 above it. -/
noncomputable def centres : Nat → P3
  | 0 => ⟨1/2, 1/2, -1/2⟩
  | _ => ⟨1/2, 1/2, 1/2⟩

theorem square_normal : listNormal square (order square [0, 1, 2, 3]) = some ⟨0, 0, 1⟩ := by
  rw [order_convex square 0 1 2 3 _ _ square_convex]
  simp only [listNormal, normalQuad_convex square_convex]
  have : Geo.norm (cross ⟨1, 0, 0⟩ ⟨0, 1, 0⟩) = 1 := by simp [Geo.norm, cross]
  rw [unit_of_norm this]
  congr 1
  ext <;> norm_num [cross]

/-- Non-vacuity: the face between the two cells, listed with the upper one first, gets the lower one
first; the bottom face of the upper cell keeps its list, the top face of the lower one is turned
round and its corner 0 has the number of vertex 3. -/
example :
    orient square centres ⟨1/2, 1/2, 0⟩ ⟨[0, 1, 2, 3], (1, 0), ⟨0, 0, 0⟩⟩ =
      some ⟨[0, 1, 2, 3], (0, 1), ⟨0, 0, 1⟩⟩ ∧
    height ⟨0, 0, 1⟩ ⟨1/2, 1/2, 0⟩ (centres 1) * height ⟨0, 0, 1⟩ ⟨1/2, 1/2, 0⟩ (centres 0) < 0 ∧
    orient square centres ⟨1/2, 1/2, 0⟩ ⟨[0, 1, 2, 3], (1, -1), ⟨0, 0, 0⟩⟩ =
      some ⟨[0, 1, 2, 3], (-1, 1), ⟨0, 0, 1⟩⟩ ∧
    orient square centres ⟨1/2, 1/2, 0⟩ ⟨[0, 1, 2, 3], (0, -1), ⟨0, 0, 0⟩⟩ =
      some ⟨[3, 2, 1, 0], (-1, 0), neg ⟨0, 0, 1⟩⟩ ∧
    height (cross ⟨1, 0, 0⟩ ⟨0, 1, 0⟩) ⟨1/2, 1/2, 0⟩ (centres 0) < 0 := by
  have ho := order_convex square 0 1 2 3 _ _ square_convex
  have hn := square_normal
  rw [ho] at hn
  refine ⟨?_, ?_, ?_, ?_, ?_⟩
  · unfold orient; simp only [ho, hn, Option.bind_some]; norm_num [dot, join, centres]
  · norm_num [height, ip, join, centres]
  · unfold orient; simp only [ho, hn, Option.bind_some]; norm_num [dot, join, centres]
  · unfold orient; simp only [ho, hn, Option.bind_some]; norm_num [dot, join, centres]
  · norm_num [height, ip, join, centres, cross]

/-- Non-vacuity of the triangle. -/
example : cross (join (square 0) (square 1)) (join (square 0) (square 2)) ≠ ⟨0, 0, 0⟩ ∧
    ∃ g, orient square centres ⟨0, 0, 0⟩ ⟨[0, 1, 2], (0, 1), ⟨0, 0, 0⟩⟩ = some g := by
  refine ⟨?_, C143_oriented _ _ _ _ (by simp) (by simp)⟩
  simp [cross, join, square]

end TDy.FaceOrient.Props
