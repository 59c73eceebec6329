import Verif.Spec.Grow
import Verif.Props.Shift
import Verif.Props.MeshTraverse
import Mathlib.Tactic.FieldSimp
import Mathlib.Tactic.LinearCombination
import Mathlib.Tactic.NormNum
import Mathlib.Tactic.Positivity

/-!
# C219: the unit of length does not matter
-/

namespace TDy.Geo.Props

open TDy.Geo.Spec

section vectors

theorem dot_g (p q : P3) : dot p q = p.x * q.x + p.y * q.y + p.z * q.z := by
  simp only [dot]; ring

theorem dot_grow (s t : ℝ) (p q : P3) : dot (grow s p) (grow t q) = s * t * dot p q := by
  simp only [dot_g, grow]; ring

theorem dot_grow_left (s : ℝ) (p q : P3) : dot (grow s p) q = s * dot p q := by
  simp only [dot_g, grow]; ring

theorem cross_grow (s t : ℝ) (p q : P3) : cross (grow s p) (grow t q) = grow (s * t) (cross p q) := by
  ext <;> simp only [cross, grow] <;> ring

theorem join_grow (s : ℝ) (p q : P3) : join (grow s p) (grow s q) = grow s (join p q) := by
  ext <;> simp only [join, grow] <;> ring

theorem add_grow (s : ℝ) (p q : P3) :
    (⟨(grow s p).x + (grow s q).x, (grow s p).y + (grow s q).y, (grow s p).z + (grow s q).z⟩ : P3) =
      grow s ⟨p.x + q.x, p.y + q.y, p.z + q.z⟩ := by
  ext <;> simp only [grow] <;> ring

theorem div_grow (s : ℝ) (p : P3) (k : ℝ) :
    (⟨(grow s p).x / k, (grow s p).y / k, (grow s p).z / k⟩ : P3) =
      grow s ⟨p.x / k, p.y / k, p.z / k⟩ := by
  ext <;> simp only [grow] <;> ring

theorem zero_grow (s : ℝ) : grow s ⟨0, 0, 0⟩ = ⟨0, 0, 0⟩ := by
  ext <;> simp only [grow] <;> ring

variable {s : ℝ} (hs : 0 < s)

include hs

theorem sqrt_grow (p : P3) : Real.sqrt (dot (grow s p) (grow s p)) = s * Real.sqrt (dot p p) := by
  rw [dot_grow, Real.sqrt_mul (by positivity), Real.sqrt_mul_self hs.le]

theorem norm_grow (p : P3) : norm (grow s p) = s * norm p := sqrt_grow hs p

theorem dir_grow (p : P3) (k : ℝ) :
    (⟨(grow s p).x / (s * k), (grow s p).y / (s * k), (grow s p).z / (s * k)⟩ : P3) =
      ⟨p.x / k, p.y / k, p.z / k⟩ := by
  ext <;> simp only [grow] <;> exact mul_div_mul_left _ _ hs.ne'

theorem unit_grow (p : P3) : unit (grow s p) = unit p := by
  simp only [unit, norm_grow hs, dir_grow hs]

theorem unitJoin_grow (p q : P3) : unitJoin (grow s p) (grow s q) = unitJoin p q := by
  simp only [unitJoin, join_grow, unit_grow hs]

omit hs in
theorem mean4_grow (s : ℝ) (a b c d : P3) :
    mean4 (grow s a) (grow s b) (grow s c) (grow s d) = grow s (mean4 a b c d) := by
  ext <;> simp only [mean4, grow] <;> ring

omit hs in
theorem normalTriangle_grow (s : ℝ) (p q r : P3) :
    normalTriangle (grow s p) (grow s q) (grow s r) = grow (s ^ 2) (normalTriangle p q r) := by
  simp only [normalTriangle, join_grow, cross_grow, sq]

theorem unitNormalTriangle_grow (p q r : P3) :
    unitNormalTriangle (grow s p) (grow s q) (grow s r) = unitNormalTriangle p q r := by
  simp only [unitNormalTriangle, normalTriangle_grow, unit_grow (pow_pos hs 2)]

theorem normalQuad_grow (a b c d : P3) :
    normalQuad (grow s a) (grow s b) (grow s c) (grow s d) = normalQuad a b c d := by
  simp only [normalQuad, mean4_grow, unitNormalTriangle_grow hs]

theorem tetVolume_grow (a b c d : P3) :
    tetVolume (grow s a) (grow s b) (grow s c) (grow s d) = s ^ 3 * tetVolume a b c d := by
  simp only [tetVolume, join_grow, cross_grow, dot_grow, abs_mul, abs_of_pos hs]; ring

theorem tetVolume2_grow (a b c d : P3) :
    tetVolume2 (grow s a) (grow s b) (grow s c) (grow s d) = s ^ 3 * tetVolume2 a b c d := by
  simp only [tetVolume2, join_grow, cross_grow, dot_grow, abs_mul, abs_of_pos hs]; ring

theorem sumTets_grow (v : Nat → P3) (l : List (Nat × Nat × Nat × Nat)) :
    sumTets (fun i => grow s (v i)) l = s ^ 3 * sumTets v l := by
  have h : ∀ (l : List (Nat × Nat × Nat × Nat)) (a : ℝ),
      l.foldl (fun vol t => vol + tetVolume2 (grow s (v t.1)) (grow s (v t.2.1)) (grow s (v t.2.2.1))
        (grow s (v t.2.2.2))) (s ^ 3 * a) =
      s ^ 3 * l.foldl (fun vol t => vol + tetVolume2 (v t.1) (v t.2.1) (v t.2.2.1) (v t.2.2.2)) a := by
    intro l
    induction l with
    | nil => intro a; rfl
    | cons t l ih =>
      intro a
      simp only [List.foldl_cons]
      rw [tetVolume2_grow hs, ← mul_add, ih]
  have := h l 0
  rw [mul_zero] at this
  exact this

omit hs in
theorem plane_grow (s : ℝ) (p q r : P3) :
    planeOf (grow s p) (grow s q) (grow s r) =
      ⟨s ^ 2 * (planeOf p q r).a, s ^ 2 * (planeOf p q r).b, s ^ 2 * (planeOf p q r).c,
        s ^ 3 * (planeOf p q r).d⟩ := by
  simp only [planeOf, grow, Plane.mk.injEq]
  refine ⟨?_, ?_, ?_, ?_⟩ <;> ring

theorem intercept_grow (p q r u v : P3) :
    planeIntercept (planeOf (grow s p) (grow s q) (grow s r)) (grow s u) (grow s v) =
      grow s (planeIntercept (planeOf p q r) u v) := by
  rw [plane_grow]
  generalize planeOf p q r = P
  have e : (s ^ 2 * P.a * (grow s u).x + s ^ 2 * P.b * (grow s u).y + s ^ 2 * P.c * (grow s u).z +
        s ^ 3 * P.d) /
      (s ^ 2 * P.a * ((grow s u).x - (grow s v).x) + s ^ 2 * P.b * ((grow s u).y - (grow s v).y) +
        s ^ 2 * P.c * ((grow s u).z - (grow s v).z)) =
      (P.a * u.x + P.b * u.y + P.c * u.z + P.d) /
        (P.a * (u.x - v.x) + P.b * (u.y - v.y) + P.c * (u.z - v.z)) := by
    rw [← mul_div_mul_left _ (P.a * (u.x - v.x) + P.b * (u.y - v.y) + P.c * (u.z - v.z))
      (pow_pos hs 3).ne']
    congr 1 <;> (try simp only [grow]) <;> ring
  simp only [planeIntercept, e]
  ext <;> simp only [grow] <;> ring

theorem project_grow (p q r u : P3) :
    projectOnPlane (planeOf (grow s p) (grow s q) (grow s r)) (grow s u) =
      grow s (projectOnPlane (planeOf p q r) u) := by
  rw [plane_grow]
  generalize planeOf p q r = P
  have e : (s ^ 2 * P.a * (grow s u).x + s ^ 2 * P.b * (grow s u).y + s ^ 2 * P.c * (grow s u).z +
        s ^ 3 * P.d) /
      (s ^ 2 * P.a * (s ^ 2 * P.a) + s ^ 2 * P.b * (s ^ 2 * P.b) + s ^ 2 * P.c * (s ^ 2 * P.c)) =
      (P.a * u.x + P.b * u.y + P.c * u.z + P.d) / (P.a * P.a + P.b * P.b + P.c * P.c) / s := by
    rw [div_div, ← mul_div_mul_left _ ((P.a * P.a + P.b * P.b + P.c * P.c) * s) (pow_pos hs 3).ne']
    congr 1 <;> (try simp only [grow]) <;> ring
  simp only [projectOnPlane, e]
  have h := hs.ne'
  ext <;> simp only [grow] <;> field_simp

omit hs in
theorem mid_grow (s : ℝ) (p q : P3) :
    FaceGeom.mid (grow s p) (grow s q) = grow s (FaceGeom.mid p q) := by
  have e : (2.0 : ℝ) = 2 := by norm_num
  ext <;> simp only [FaceGeom.mid, grow, e] <;> ring

theorem innerAttr_grow (u v q : P3) :
    FaceGeom.innerAttr (grow s u) (grow s v) (grow s q) =
      (s * (FaceGeom.innerAttr u v q).1, s * (FaceGeom.innerAttr u v q).2.1,
        (FaceGeom.innerAttr u v q).2.2.1, (FaceGeom.innerAttr u v q).2.2.2) := by
  have h : ∀ p q k, (⟨((grow s p).x + (grow s q).x) / (s * k), ((grow s p).y + (grow s q).y) / (s * k),
      ((grow s p).z + (grow s q).z) / (s * k)⟩ : P3) =
      ⟨(p.x + q.x) / k, (p.y + q.y) / k, (p.z + q.z) / k⟩ := by
    intro p q k
    ext <;> simp only [grow, ← mul_add] <;> exact mul_div_mul_left _ _ hs.ne'
  simp only [FaceGeom.innerAttr, join_grow, sqrt_grow hs, add_grow, h, ← mul_add,
    mul_div_mul_left _ _ hs.ne']

theorem triArea_grow (p q r : P3) :
    FaceGeom.triArea (grow s p) (grow s q) (grow s r) = s ^ 2 * FaceGeom.triArea p q r := by
  simp only [FaceGeom.triArea, join_grow, cross_grow, sqrt_grow (mul_pos hs hs)]; ring

theorem triAttr_grow (p q r u v n : P3) :
    FaceGeom.triAttr (grow s p) (grow s q) (grow s r) (grow s u) (grow s v) n =
      (s ^ 2 * (FaceGeom.triAttr p q r u v n).1, s ^ 2 * (FaceGeom.triAttr p q r u v n).2.1,
        grow s (FaceGeom.triAttr p q r u v n).2.2) := by
  simp only [FaceGeom.triAttr, join_grow, cross_grow, sqrt_grow (mul_pos hs hs), dir_grow (mul_pos hs hs),
    intercept_grow hs, Prod.mk.injEq]
  refine ⟨by ring, ?_, trivial⟩
  rw [← abs_of_pos (pow_pos hs 2), ← abs_mul]
  congr 1
  ring

omit hs in
theorem ite_grow (s : ℝ) (c : Prop) [Decidable c] (p q : P3) :
    (if c then grow s p else grow s q) = grow s (if c then p else q) := by
  split <;> rfl

end vectors

/-! ## Cells and faces -/

/-- Cells: volumes are multiplied by the third power, centroids are the same points. -/
theorem C219_cells {s : ℝ} (hs : 0 < s) (v : Nat → P3) (n : Nat) :
    cellVolume (fun i => grow s (v i)) n = (cellVolume v n).map (fun x => s ^ 3 * x) ∧
      cellCentroid (fun i => grow s (v i)) n = grow s (cellCentroid v n) := by
  constructor
  · unfold cellVolume
    split <;> simp only [sumTets_grow hs, tetVolume2_grow hs, Option.map_some, Option.map_none, zero_add]
  · have h : ∀ n p, forN n (fun i (t : P3) => (⟨t.x + (grow s (v i)).x, t.y + (grow s (v i)).y,
        t.z + (grow s (v i)).z⟩ : P3)) (grow s p) =
        grow s (forN n (fun i (t : P3) => (⟨t.x + (v i).x, t.y + (v i).y, t.z + (v i).z⟩ : P3)) p) := by
      intro n p
      induction n with
      | zero => rfl
      | succ n ih => simp only [forN, ih, add_grow]
    have h0 := h n ⟨0, 0, 0⟩
    rw [zero_grow] at h0
    simp only [cellCentroid, h0, div_grow]

/-- A tetrahedron in another unit. -/
example : cellVolume (fun i => grow 2 ([(⟨0, 0, 0⟩ : P3), ⟨1, 0, 0⟩, ⟨0, 1, 0⟩, ⟨0, 0, 1⟩].getD i ⟨0, 0, 0⟩)) 4
    = some (2 ^ 3 * (1 / 6)) := by
  rw [(C219_cells (by norm_num) _ 4).1]
  simp only [cellVolume, tetVolume2, join, cross, dot, Option.map_some]
  norm_num

/-- Areas of triangles and quadrilaterals. -/
theorem C219_areas {s : ℝ} (hs : 0 < s) (a b c d : P3) :
    triangleArea (grow s a) (grow s b) (grow s c) = s ^ 2 * triangleArea a b c ∧
      quadArea (grow s a) (grow s b) (grow s c) (grow s d) = s ^ 2 * quadArea a b c d := by
  have h : ∀ a b c : P3, triangleArea (grow s a) (grow s b) (grow s c) = s ^ 2 * triangleArea a b c := by
    intro a b c
    simp only [triangleArea, join_grow, cross_grow, norm_grow (mul_pos hs hs)]; ring
  refine ⟨h a b c, ?_⟩
  simp only [quadArea, mean4_grow, h]; ring

/-- Faces of a mesh that comes through DMPlex: distances and projected areas follow the unit, directions
and weights stay. -/
theorem C219_plex_faces {s : ℝ} (hs : 0 < s) (x cen : Nat → P3) (fc n : P3) (area : ℝ) (verts : List Nat)
    (cells : ℤ × ℤ) :
    FaceGeom.faceAttr (fun i => grow s (x i)) (fun i => grow s (cen i)) (grow s fc) n (s ^ 2 * area) verts
      cells = (FaceGeom.faceAttr x cen fc n area verts cells).map (growAttr s) := by
  have hI : ∀ u v : P3, FaceGeom.plexIntercept (fun i => grow s (x i)) (grow s u) (grow s v) verts
      = (FaceGeom.plexIntercept x u v verts).map (grow s) := by
    intro u v
    unfold FaceGeom.plexIntercept
    split <;> simp only [intercept_grow hs, mid_grow, Option.map_some, Option.map_none]
  have hP : ∀ u : P3, FaceGeom.plexProjection (fun i => grow s (x i)) (grow s u) verts
      = (FaceGeom.plexProjection x u verts).map (grow s) := by
    intro u
    unfold FaceGeom.plexProjection
    split <;> simp only [project_grow hs, Option.map_some, Option.map_none]
  have z : (0.0 : ℝ) = 0 := by norm_num
  unfold FaceGeom.faceAttr
  simp only [ite_grow, hI, hP]
  split
  · rfl
  · split
    · rw [Option.map_map, Option.map_map]
      congr 1
      funext q
      simp only [Function.comp, innerAttr_grow hs, growAttr, mul_assoc]
    · rw [Option.map_map, Option.map_map]
      congr 1
      funext q
      simp only [Function.comp, join_grow, sqrt_grow hs, dir_grow hs, growAttr, z, mul_zero, zero_div,
        mul_assoc]

/-- Faces of a mesh the library reads itself. -/
theorem C219_own_faces {s : ℝ} (hs : 0 < s) (x : Nat → P3) (up dn : P3) (verts : List Nat)
    (ids : List ℤ) :
    FaceGeom.innerFace (fun i => grow s (x i)) (grow s up) (grow s dn) verts =
        (FaceGeom.innerFace x up dn verts).map (fun p => (s ^ 2 * p.1, growAttr s p.2)) ∧
      FaceGeom.ugridArea (fun i => grow s (x i)) verts =
        (FaceGeom.ugridArea x verts).map (fun a => s ^ 2 * a) ∧
      FaceGeom.ugridCentroid (fun i => grow s (x i)) ids =
        grow s (FaceGeom.ugridCentroid x ids) := by
  have z : (0.0 : ℝ) = 0 := by norm_num
  refine ⟨?_, ?_, ?_⟩
  · unfold FaceGeom.innerFace
    split <;> simp only [join_grow, sqrt_grow hs, dir_grow hs, triAttr_grow hs, mid_grow, innerAttr_grow hs,
      Option.map_some, Option.map_none, growAttr, z, add_zero, mul_add]
  · unfold FaceGeom.ugridArea
    split <;> simp only [triArea_grow hs, Option.map_some, Option.map_none, z, add_zero, mul_add]
  · have key : ∀ (l : List ℤ) (p : P3),
        List.foldl (fun (t p : P3) => (⟨t.x + p.x, t.y + p.y, t.z + p.z⟩ : P3)) (grow s p)
          (l.map fun v => grow s (x v.toNat)) =
        grow s (List.foldl (fun (t p : P3) => (⟨t.x + p.x, t.y + p.y, t.z + p.z⟩ : P3)) p
            (l.map fun v => x v.toNat)) := by
      intro l
      induction l with
      | nil => intro p; rfl
      | cons a l ih => intro p; simp only [List.map_cons, List.foldl_cons, add_grow, ih]
    have h1 := key (ids.filter fun v => decide (0 ≤ v)) ⟨0, 0, 0⟩
    rw [zero_grow] at h1
    simp only [FaceGeom.ugridCentroid, z, h1, List.length_map, div_grow]

/-- The order of the vertices of a face, its cells and its normal stay. -/
theorem C219_orientation {s : ℝ} (hs : 0 < s) (x cen : Nat → P3) (fc : P3) (f : FaceOrient.Face) :
    FaceOrient.orient (fun i => grow s (x i)) (fun i => grow s (cen i)) (grow s fc) f =
      FaceOrient.orient x cen fc f := by
  have z : (0.0 : ℝ) = 0 := by norm_num
  have ho : ∀ l, FaceOrient.order (fun i => grow s (x i)) l = FaceOrient.order x l := by
    intro l
    unfold FaceOrient.order
    split <;> simp only [unitNormalTriangle_grow hs]
  have hn : ∀ l, FaceOrient.listNormal (fun i => grow s (x i)) l = FaceOrient.listNormal x l := by
    intro l
    unfold FaceOrient.listNormal
    split <;> simp only [unitNormalTriangle_grow hs, normalQuad_grow hs]
  have hd : ∀ n p : P3, (dot n (grow s p) > 0.0) = (dot n p > 0.0) := by
    intro n p
    have : dot n (grow s p) = s * dot n p := by simp only [dot_g, grow]; ring
    rw [this, z]
    exact propext (mul_pos_iff_of_pos_left hs)
  simp only [FaceOrient.orient, ho, hn, join_grow, hd]

end TDy.Geo.Props
