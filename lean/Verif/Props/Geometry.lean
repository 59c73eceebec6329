import Verif.Spec.Geometry
import Mathlib.Tactic.Ring
import Mathlib.Tactic.Linarith
import Mathlib.Tactic.FieldSimp
import Mathlib.Tactic.LinearCombination
import Mathlib.Tactic.FinCases
import Mathlib.LinearAlgebra.Matrix.NonsingularInverse

/-! # C32-C35, C86-C89: geometry -/

namespace TDy.Geo.Props

open TDy.Geo TDy.Geo.Spec Matrix

/-! ## C32 -/

theorem C32_determinant (a : Nat → ℝ) : det3 a = (matrix a).det := by
  rw [Matrix.det_fin_three]
  simp [matrix, det3]
  ring

/-- The result is the two-sided inverse whenever the determinant is not zero. -/
theorem C32_inverse (a : Nat → ℝ) (h : (matrix a).det ≠ 0) :
    matrix (computeInverse a).1 * matrix a = 1 ∧ matrix a * matrix (computeInverse a).1 = 1 := by
  have hd : det3 a ≠ 0 := by rw [C32_determinant]; exact h
  have key : matrix (computeInverse a).1 * matrix a = 1 := by
    ext i j
    rw [Matrix.mul_apply, Fin.sum_univ_three]
    have hd' := hd
    unfold det3 at hd'
    fin_cases i <;> fin_cases j <;>
      simp [matrix, computeInverse, inv3] <;> field_simp <;> simp only [det3] <;> ring
  exact ⟨key, mul_eq_one_comm.1 key⟩

/-- The routine changes its argument: entries below machine epsilon are set to zero. -/
theorem C32_argument_changed (a : Nat → ℝ) (i : Nat) :
    (computeInverse a).2 i = if i < 9 ∧ |a i| < machineEps then 0 else a i := by
  have key : ∀ n, ∀ i, forN n (fun i a => if |a i| < machineEps then wr a i 0 else a) a i =
      if i < n ∧ |a i| < machineEps then 0 else a i := by
    intro n
    induction n with
    | zero => intro i; simp [forN]
    | succ n ih =>
      intro i
      simp only [forN]
      have hn : forN n (fun i a => if |a i| < machineEps then wr a i 0 else a) a n = a n := by
        rw [ih, if_neg (by omega)]
      rw [hn]
      by_cases h1 : |a n| < machineEps
      · rw [if_pos h1]
        by_cases h2 : i = n
        · subst h2; rw [wr_same, if_pos ⟨by omega, h1⟩]
        · rw [wr_other _ _ h2, ih]
          congr 1
          simp only [eq_iff_iff, and_congr_left_iff]
          intro _; omega
      · rw [if_neg h1, ih]
        by_cases h2 : i = n
        · subst h2; rw [if_neg (by omega), if_neg (fun h => h1 h.2)]
        · congr 1
          simp only [eq_iff_iff, and_congr_left_iff]
          intro _; omega
  exact key 9 i

example : ∃ a : Nat → ℝ, (matrix a).det ≠ 0 ∧ (computeInverse a).2 0 ≠ a 0 := by
  refine ⟨fun i => if i = 0 then 1e-18 else if i = 4 ∨ i = 8 then 1 else 0, ?_, ?_⟩
  · rw [← C32_determinant]; norm_num [det3]
  · rw [C32_argument_changed, if_pos]
    · norm_num
    · refine ⟨by norm_num, ?_⟩
      simp only [if_true, machineEps]
      rw [abs_of_pos (by norm_num)]; norm_num

/-! ## C33 -/

theorem signedTet_eq (p q r s : P3) : 6 * signedTet p q r s =
    dot (cross (join p q) (join p r)) (join p s) := by
  simp only [signedTet, rows, Matrix.det_fin_three, dot, cross, join, minus]
  simp
  ring

theorem C33_tetrahedron (p q r s : P3) : tetVolume p q r s = |signedTet p q r s| := by
  rw [tetVolume, ← signedTet_eq, abs_mul]
  norm_num

theorem C33_tetrahedron2 (p q r s : P3) : tetVolume2 p q r s = |signedTet p q r s| := by
  have : dot (join s p) (cross (join s q) (join s r)) = -(6 * signedTet p q r s) := by
    rw [signedTet_eq]
    simp only [dot, cross, join]; ring
  rw [tetVolume2, this, abs_neg, abs_mul]
  norm_num

/-- The two routines agree. -/
theorem C33_routines_agree (p q r s : P3) : tetVolume p q r s = tetVolume2 p q r s := by
  rw [C33_tetrahedron, C33_tetrahedron2]

/-- The volume of a tetrahedral cell. -/
theorem C33_tet_cell (v : Nat → P3) : cellVolume v 4 = some |signedTet (v 0) (v 1) (v 2) (v 3)| := by
  simp only [cellVolume, C33_tetrahedron2, zero_add]

/-- Five numbers of the same sign. -/
theorem abs_sum_same_sign (l : List ℝ) (h : (∀ x ∈ l, 0 ≤ x) ∨ (∀ x ∈ l, x ≤ 0)) :
    (l.map fun x => |x|).sum = |l.sum| := by
  rcases h with h | h
  · have : ∀ l : List ℝ, (∀ x ∈ l, 0 ≤ x) → (l.map fun x => |x|).sum = l.sum ∧ 0 ≤ l.sum := by
      intro l
      induction l with
      | nil => simp
      | cons a l ih =>
        intro h
        have h1 := h a (by simp)
        have h2 := ih (fun x hx => h x (by simp [hx]))
        simp only [List.map_cons, List.sum_cons, h2.1, abs_of_nonneg h1]
        exact ⟨trivial, by linarith [h2.2]⟩
    rw [(this l h).1, abs_of_nonneg (this l h).2]
  · have : ∀ l : List ℝ, (∀ x ∈ l, x ≤ 0) → (l.map fun x => |x|).sum = -l.sum ∧ l.sum ≤ 0 := by
      intro l
      induction l with
      | nil => simp
      | cons a l ih =>
        intro h
        have h1 := h a (by simp)
        have h2 := ih (fun x hx => h x (by simp [hx]))
        simp only [List.map_cons, List.sum_cons, h2.1, abs_of_nonpos h1]
        exact ⟨by ring, by linarith [h2.2]⟩
    rw [(this l h).1, abs_of_nonpos (this l h).2]

/-- The tetrahedra of a decomposition are not inverted relative to one another. -/
def Coherent (v : Nat → P3) (tets : List (Nat × Nat × Nat × Nat)) : Prop :=
  (∀ t ∈ tets, 0 ≤ signedTet (v t.1) (v t.2.1) (v t.2.2.1) (v t.2.2.2)) ∨
  (∀ t ∈ tets, signedTet (v t.1) (v t.2.1) (v t.2.2.1) (v t.2.2.2) ≤ 0)

theorem sumTets_coherent (v : Nat → P3) (tets : List (Nat × Nat × Nat × Nat))
    (h : Coherent v tets) : sumTets v tets =
      |(tets.map fun t => signedTet (v t.1) (v t.2.1) (v t.2.2.1) (v t.2.2.2)).sum| := by
  have key : ∀ (l : List (Nat × Nat × Nat × Nat)) (z : ℝ),
      l.foldl (fun vol t => vol + tetVolume2 (v t.1) (v t.2.1) (v t.2.2.1) (v t.2.2.2)) z =
      z + ((l.map fun t => signedTet (v t.1) (v t.2.1) (v t.2.2.1) (v t.2.2.2)).map
        fun x => |x|).sum := by
    intro l
    induction l with
    | nil => simp
    | cons t l ih =>
      intro z
      rw [List.foldl_cons, ih, C33_tetrahedron2]
      simp only [List.map_cons, List.sum_cons]
      ring
  rw [sumTets, key, zero_add, abs_sum_same_sign]
  rcases h with h | h
  · left; intro x hx
    obtain ⟨t, ht, e⟩ := List.mem_map.1 hx
    rw [← e]; exact h t ht
  · right; intro x hx
    obtain ⟨t, ht, e⟩ := List.mem_map.1 hx
    rw [← e]; exact h t ht

/-- The volume of every hexahedron that is not so distorted that its tetrahedra overlap is the
volume its surface encloses. -/
theorem C33_hexahedron (v : Nat → P3) (h : Coherent v hexTets) :
    cellVolume v 8 = some |enclosed v hexSurface| := by
  simp only [cellVolume, sumTets_coherent v hexTets h]
  congr 2
  simp only [hexTets, hexSurface, enclosed, signedTet, rows, minus, Matrix.det_fin_three,
    List.map_cons, List.map_nil, List.sum_cons, List.sum_nil]
  simp
  ring

theorem C33_wedge (v : Nat → P3) (h : Coherent v wedgeTets) :
    cellVolume v 6 = some |enclosed v wedgeSurface| := by
  simp only [cellVolume, sumTets_coherent v wedgeTets h]
  congr 2
  simp only [wedgeTets, wedgeSurface, enclosed, signedTet, rows, minus, Matrix.det_fin_three,
    List.map_cons, List.map_nil, List.sum_cons, List.sum_nil]
  simp
  ring

theorem C33_pyramid (v : Nat → P3) (h : Coherent v pyramidTets) :
    cellVolume v 5 = some |enclosed v pyramidSurface| := by
  simp only [cellVolume, sumTets_coherent v pyramidTets h]
  congr 2
  simp only [pyramidTets, pyramidSurface, enclosed, signedTet, rows, minus, Matrix.det_fin_three,
    List.map_cons, List.map_nil, List.sum_cons, List.sum_nil]
  simp
  ring

/-- For a planar face it does not matter by which diagonal it is split. -/
theorem C33_planar_face_diagonal (v : Nat → P3) (a b c d : Nat)
    (h : signedTet (v a) (v b) (v c) (v d) = 0) :
    enclosed v [(a, b, c), (a, c, d)] = enclosed v [(a, b, d), (b, c, d)] := by
  have : enclosed v [(a, b, c), (a, c, d)] - enclosed v [(a, b, d), (b, c, d)] =
      -signedTet (v a) (v b) (v c) (v d) := by
    simp only [enclosed, signedTet, rows, minus, Matrix.det_fin_three,
      List.map_cons, List.map_nil, List.sum_cons, List.sum_nil]
    simp
    ring
  rw [h] at this
  linarith

/-- Vertices of the parallelepiped on `u`, `v`, `w` at `o`. -/
noncomputable def boxVertex (o u v w : P3) : Nat → P3
  | 0 => at' o u v w 0 0 0
  | 1 => at' o u v w 1 0 0
  | 2 => at' o u v w 1 1 0
  | 3 => at' o u v w 0 1 0
  | 4 => at' o u v w 0 0 1
  | 5 => at' o u v w 1 0 1
  | 6 => at' o u v w 1 1 1
  | _ => at' o u v w 0 1 1

/-- Vertices of the prism on the triangle `u`, `v`. -/
noncomputable def prismVertex (o u v w : P3) : Nat → P3
  | 0 => at' o u v w 0 0 0
  | 1 => at' o u v w 1 0 0
  | 2 => at' o u v w 0 1 0
  | 3 => at' o u v w 0 0 1
  | 4 => at' o u v w 1 0 1
  | _ => at' o u v w 0 1 1

/-- Vertices of the pyramid on the parallelogram `u`, `v` with apex `o + w`. -/
noncomputable def pyramidVertex (o u v w : P3) : Nat → P3
  | 0 => at' o u v w 0 0 0
  | 1 => at' o u v w 1 0 0
  | 2 => at' o u v w 1 1 0
  | 3 => at' o u v w 0 1 0
  | _ => at' o u v w 0 0 1

/-- A tetrahedron with corners at integer combinations. -/
theorem signedTet_at (o u v w : P3) (a1 b1 c1 a2 b2 c2 a3 b3 c3 a4 b4 c4 : ℝ) :
    signedTet (at' o u v w a1 b1 c1) (at' o u v w a2 b2 c2) (at' o u v w a3 b3 c3)
      (at' o u v w a4 b4 c4) =
    ((a2-a1)*((b3-b1)*(c4-c1)-(c3-c1)*(b4-b1)) - (b2-b1)*((a3-a1)*(c4-c1)-(c3-c1)*(a4-a1)) +
      (c2-c1)*((a3-a1)*(b4-b1)-(b3-b1)*(a4-a1))) * ((rows u v w).det / 6) := by
  simp only [signedTet, rows, minus, at', Matrix.det_fin_three]
  simp
  ring

theorem C33_parallelepiped (o u v w : P3) :
    cellVolume (boxVertex o u v w) 8 = some |(rows u v w).det| := by
  simp only [cellVolume, sumTets, hexTets, List.foldl_cons, List.foldl_nil, boxVertex,
    C33_tetrahedron2, signedTet_at, abs_mul, abs_div]
  norm_num
  ring

theorem C33_prism (o u v w : P3) :
    cellVolume (prismVertex o u v w) 6 = some (|(rows u v w).det| / 2) := by
  simp only [cellVolume, sumTets, wedgeTets, List.foldl_cons, List.foldl_nil, prismVertex,
    C33_tetrahedron2, signedTet_at, abs_mul, abs_div]
  norm_num
  ring

theorem C33_pyramid_on_parallelogram (o u v w : P3) :
    cellVolume (pyramidVertex o u v w) 5 = some (|(rows u v w).det| / 3) := by
  simp only [cellVolume, sumTets, pyramidTets, List.foldl_cons, List.foldl_nil, pyramidVertex,
    C33_tetrahedron2, signedTet_at, abs_mul, abs_div]
  norm_num
  ring

/-- Other numbers of vertices are reported. -/
theorem C33_other_cells_rejected (v : Nat → P3) (n : Nat) :
    cellVolume v n = none ↔ n ≠ 4 ∧ n ≠ 5 ∧ n ≠ 6 ∧ n ≠ 8 := by
  unfold cellVolume
  split <;> simp_all

/-- A skewed, non-degenerate box meets the hypothesis of `C33_hexahedron`. -/
example : Coherent (boxVertex ⟨1, 2, 3⟩ ⟨2, 0, 1⟩ ⟨0, 3, 1⟩ ⟨1, 1, 4⟩) hexTets ∧
    (rows ⟨2, 0, 1⟩ ⟨0, 3, 1⟩ ⟨1, 1, 4⟩).det = 19 := by
  have hdet : (rows ⟨2, 0, 1⟩ ⟨0, 3, 1⟩ ⟨1, 1, 4⟩).det = 19 := by
    simp [rows, Matrix.det_fin_three]; norm_num
  constructor
  · left
    intro t ht
    simp only [hexTets, List.mem_cons, List.not_mem_nil, or_false] at ht
    rcases ht with h | h | h | h | h <;> subst h <;>
      simp only [boxVertex, signedTet_at] <;> rw [hdet] <;> norm_num
  · exact hdet

/-! ## C34 -/

theorem C34_plane_contains_points (p1 p2 p3 : P3) :
    onPlane (planeOf p1 p2 p3) p1 ∧ onPlane (planeOf p1 p2 p3) p2 ∧
    onPlane (planeOf p1 p2 p3) p3 := by
  refine ⟨?_, ?_, ?_⟩ <;> simp only [onPlane, planeOf] <;> ring

/-- The plane is a plane (its normal is not zero) unless the points are collinear. -/
theorem C34_plane_nondegenerate (p1 p2 p3 : P3) :
    ((planeOf p1 p2 p3).a = 0 ∧ (planeOf p1 p2 p3).b = 0 ∧ (planeOf p1 p2 p3).c = 0) ↔
      cross (minus p2 p1) (minus p3 p1) = ⟨0, 0, 0⟩ := by
  simp only [planeOf, cross, minus, P3.mk.injEq]

/-- The intercept lies on the plane and on the line through the two points, unless the line is
parallel to the plane; if the points lie on different sides it lies between them. -/
theorem C34_intercept (pl : Plane) (p1 p2 : P3)
    (h : pl.a * (p1.x - p2.x) + pl.b * (p1.y - p2.y) + pl.c * (p1.z - p2.z) ≠ 0) :
    onPlane pl (planeIntercept pl p1 p2) ∧
    ∃ u : ℝ, planeIntercept pl p1 p2 =
        ⟨p1.x + u * (p2.x - p1.x), p1.y + u * (p2.y - p1.y), p1.z + u * (p2.z - p1.z)⟩ ∧
      ((pl.a * p1.x + pl.b * p1.y + pl.c * p1.z + pl.d) *
        (pl.a * p2.x + pl.b * p2.y + pl.c * p2.z + pl.d) ≤ 0 → 0 ≤ u ∧ u ≤ 1) := by
  refine ⟨?_, _, rfl, ?_⟩
  · simp only [onPlane, planeIntercept]
    field_simp
    ring
  · intro hs
    set s1 := pl.a * p1.x + pl.b * p1.y + pl.c * p1.z + pl.d with hs1
    set s2 := pl.a * p2.x + pl.b * p2.y + pl.c * p2.z + pl.d with hs2
    have hd : pl.a * (p1.x - p2.x) + pl.b * (p1.y - p2.y) + pl.c * (p1.z - p2.z) = s1 - s2 := by
      rw [hs1, hs2]; ring
    rw [hd] at h ⊢
    rcases lt_or_gt_of_ne h with hneg | hpos
    · constructor
      · apply div_nonneg_of_nonpos _ hneg.le
        by_contra hc
        push Not at hc
        nlinarith
      · rw [div_le_one_of_neg hneg]
        by_contra hc
        push Not at hc
        nlinarith
    · constructor
      · apply div_nonneg _ hpos.le
        by_contra hc
        push Not at hc
        nlinarith
      · rw [div_le_one hpos]
        by_contra hc
        push Not at hc
        nlinarith

/-- The projection lies on the plane and is the nearest point of it. -/
theorem C34_projection (pl : Plane) (p : P3) (h : pl.a ^ 2 + pl.b ^ 2 + pl.c ^ 2 ≠ 0) :
    onPlane pl (projectOnPlane pl p) ∧
    ∀ q, onPlane pl q → len (minus p (projectOnPlane pl p)) ≤ len (minus p q) := by
  have h' : pl.a * pl.a + pl.b * pl.b + pl.c * pl.c ≠ 0 := by
    intro e; apply h; rw [← e]; ring
  refine ⟨?_, ?_⟩
  · simp only [onPlane, projectOnPlane]
    field_simp
    ring
  · intro q hq
    unfold len
    apply Real.sqrt_le_sqrt
    simp only [onPlane] at hq
    set t := (pl.a * p.x + pl.b * p.y + pl.c * p.z + pl.d) /
      (pl.a * pl.a + pl.b * pl.b + pl.c * pl.c) with ht
    have ht' : t * (pl.a * pl.a + pl.b * pl.b + pl.c * pl.c) =
        pl.a * p.x + pl.b * p.y + pl.c * p.z + pl.d := by
      rw [ht]; field_simp
    simp only [projectOnPlane, minus, ← ht]
    have e : (p.x - q.x) ^ 2 + (p.y - q.y) ^ 2 + (p.z - q.z) ^ 2 =
        ((p.x - (p.x - pl.a * t)) ^ 2 + (p.y - (p.y - pl.b * t)) ^ 2 +
          (p.z - (p.z - pl.c * t)) ^ 2) +
        ((p.x - q.x - pl.a * t) ^ 2 + (p.y - q.y - pl.b * t) ^ 2 + (p.z - q.z - pl.c * t) ^ 2) := by
      have : pl.a * (p.x - q.x) + pl.b * (p.y - q.y) + pl.c * (p.z - q.z) =
          t * (pl.a * pl.a + pl.b * pl.b + pl.c * pl.c) := by
        rw [ht']; linarith
      linear_combination 2 * t * this
    rw [e]
    have := sq_nonneg (p.x - q.x - pl.a * t)
    have := sq_nonneg (p.y - q.y - pl.b * t)
    have := sq_nonneg (p.z - q.z - pl.c * t)
    linarith

example : onPlane (planeOf ⟨0,0,1⟩ ⟨1,0,1⟩ ⟨0,1,1⟩)
    (planeIntercept (planeOf ⟨0,0,1⟩ ⟨1,0,1⟩ ⟨0,1,1⟩) ⟨3,4,0⟩ ⟨5,6,5⟩) :=
  (C34_intercept _ _ _ (by norm_num [planeOf])).1

/-! ## C35 -/

/-- If the value occurs, the result is its first index. -/
theorem C35_first_index_partial (list : Nat → Int) (n : Nat) (value : Int)
    (h : ∃ i, i < n ∧ list i = value) :
    ∃ i : Nat, returnIndexInList list n value = i ∧ i < n ∧ list i = value ∧
      ∀ j < i, list j ≠ value := by
  unfold returnIndexInList
  cases hf : (List.range n).find? (fun i => list i == value) with
  | none =>
    obtain ⟨i, hi, e⟩ := h
    rw [List.find?_eq_none] at hf
    exact absurd (by simpa using e) (hf i (List.mem_range.2 hi))
  | some i =>
    refine ⟨i, rfl, ?_⟩
    have h1 := List.find?_some hf
    have h2 := List.mem_of_find?_eq_some hf
    refine ⟨List.mem_range.1 h2, by simpa using h1, ?_⟩
    intro j hj
    have := (List.find?_range_eq_some.1 hf).2.2
    have := this j hj
    simpa using this

/-- C35 fails: if the value does not occur the result is not -1 but 76, which for a list of more
than 76 entries is a valid index of another value. -/
theorem C35_miss_looks_like_a_hit (list : Nat → Int) (n : Nat) (value : Int)
    (h : ∀ i < n, list i ≠ value) : returnIndexInList list n value = 76 := by
  unfold returnIndexInList
  have : (List.range n).find? (fun i => list i == value) = none := by
    rw [List.find?_eq_none]
    intro i hi
    simpa using h i (List.mem_range.1 hi)
  rw [this]

example : returnIndexInList (fun i => i) 100 200 = 76 :=
  C35_miss_looks_like_a_hit _ _ _ (by intro i hi; omega)

example : ∃ i : Nat, returnIndexInList (fun i => i % 7) 100 3 = i ∧ i < 100 ∧ (i % 7 : Int) = 3 := by
  obtain ⟨i, h1, h2, h3, -⟩ := C35_first_index_partial (fun i => i % 7) 100 3 ⟨10, by norm_num⟩
  exact ⟨i, h1, h2, h3⟩

/-! ## C86 -/

/-- The angle lies in `[0, 2 pi)` and is the polar angle of the point. -/
theorem C86_polar_angle (x y : ℝ) (h : ¬ (x = 0 ∧ y = 0)) :
    0 ≤ theta x y ∧ theta x y < 2 * Real.pi ∧
    x = Real.sqrt (x ^ 2 + y ^ 2) * Real.cos (theta x y) ∧
    y = Real.sqrt (x ^ 2 + y ^ 2) * Real.sin (theta x y) := by
  have hpi := Real.pi_pos
  have habs : ∀ x y : ℝ, x ≠ 0 → Real.sqrt (x ^ 2 + y ^ 2) = |x| * Real.sqrt (1 + (y/x) ^ 2) := by
    intro x y hx
    rw [← Real.sqrt_sq_eq_abs, ← Real.sqrt_mul (sq_nonneg x)]
    congr 1; field_simp
  have hsq : ∀ t : ℝ, 0 < Real.sqrt (1 + t ^ 2) := fun t => Real.sqrt_pos.2 (by positivity)
  unfold theta
  rcases lt_trichotomy x 0 with hx | hx | hx
  · rw [if_neg (by linarith), if_neg hx.ne]
    have hs := hsq (y/x)
    refine ⟨?_, ?_, ?_, ?_⟩
    · linarith [Real.neg_pi_div_two_lt_arctan (y/x)]
    · linarith [Real.arctan_lt_pi_div_two (y/x)]
    · rw [Real.cos_add_pi, Real.cos_arctan, habs x y hx.ne, abs_of_neg hx]
      field_simp
    · rw [Real.sin_add_pi, Real.sin_arctan, habs x y hx.ne, abs_of_neg hx]
      have := hx.ne
      field_simp
  · subst hx
    rw [if_neg (lt_irrefl _), if_pos rfl]
    have hy : y ≠ 0 := fun e => h ⟨rfl, e⟩
    rcases lt_or_gt_of_ne hy with hy | hy
    · rw [if_neg (by linarith), if_neg hy.ne]
      have e : (1.5:ℝ) * Real.pi = Real.pi / 2 + Real.pi := by ring
      refine ⟨by positivity, by linarith, ?_, ?_⟩
      · rw [e, Real.cos_add_pi, Real.cos_pi_div_two]; simp
      · rw [e, Real.sin_add_pi, Real.sin_pi_div_two]
        have : Real.sqrt ((0:ℝ) ^ 2 + y ^ 2) = -y := by
          rw [zero_pow two_ne_zero, zero_add, Real.sqrt_sq_eq_abs, abs_of_neg hy]
        rw [this]; ring
    · rw [if_pos hy]
      have e : (0.5:ℝ) * Real.pi = Real.pi / 2 := by ring
      refine ⟨by positivity, by linarith, ?_, ?_⟩
      · rw [e, Real.cos_pi_div_two]; simp
      · rw [e, Real.sin_pi_div_two]
        have : Real.sqrt ((0:ℝ) ^ 2 + y ^ 2) = y := by
          rw [zero_pow two_ne_zero, zero_add, Real.sqrt_sq_eq_abs, abs_of_pos hy]
        rw [this]; ring
  · rw [if_pos hx]
    have hs := hsq (y/x)
    have hc : Real.sqrt (x ^ 2 + y ^ 2) * Real.cos (Real.arctan (y/x)) = x := by
      rw [Real.cos_arctan, habs x y hx.ne', abs_of_pos hx]; field_simp
    have hsn : Real.sqrt (x ^ 2 + y ^ 2) * Real.sin (Real.arctan (y/x)) = y := by
      rw [Real.sin_arctan, habs x y hx.ne', abs_of_pos hx]; field_simp
    by_cases hy : y ≥ 0
    · rw [if_pos hy]
      refine ⟨Real.arctan_nonneg.2 (div_nonneg hy hx.le), ?_, hc.symm, hsn.symm⟩
      linarith [Real.arctan_lt_pi_div_two (y/x)]
    · rw [if_neg hy]
      push Not at hy
      have : Real.arctan (y/x) < 0 := Real.arctan_lt_zero.2 (div_neg_of_neg_of_pos hy hx)
      refine ⟨?_, by linarith, ?_, ?_⟩
      · linarith [Real.neg_pi_div_two_lt_arctan (y/x)]
      · rw [Real.cos_add_two_pi, hc]
      · rw [Real.sin_add_two_pi, hsn]

/-! ## C87 -/

theorem norm_eq_len (v : P3) : norm v = len v := by
  unfold norm len; congr 1; ring

/-- The triangle's area: half the area of the parallelogram on its sides. -/
theorem C87_triangle_area (p q r : P3) :
    0 ≤ triangleArea p q r ∧ (2 * triangleArea p q r) ^ 2 =
      len (minus q p) ^ 2 * len (minus r p) ^ 2 - inner (minus q p) (minus r p) ^ 2 := by
  constructor
  · unfold triangleArea; rw [norm_eq_len]; unfold len; positivity
  · have e : 2 * triangleArea p q r = norm (cross (join p q) (join p r)) := by
      unfold triangleArea; ring
    rw [e, norm_eq_len]
    unfold len
    rw [Real.sq_sqrt (by positivity), Real.sq_sqrt (by positivity), Real.sq_sqrt (by positivity)]
    simp only [cross, join, minus, inner]
    ring

theorem len_cross_smul (n : P3) (c : ℝ) : len ⟨c * n.x, c * n.y, c * n.z⟩ = |c| * len n := by
  unfold len
  rw [← Real.sqrt_sq_eq_abs, ← Real.sqrt_mul (sq_nonneg c)]
  congr 1; ring

/-- A planar quadrilateral whose centre sees all its sides from the inside: the cross products are
non-negative multiples of one normal. -/
def SeenFromCentre (p q r s : P3) (n : P3) (a b c d : ℝ) : Prop :=
  normalTriangle (mean4 p q r s) p q = ⟨a * n.x, a * n.y, a * n.z⟩ ∧
  normalTriangle (mean4 p q r s) q r = ⟨b * n.x, b * n.y, b * n.z⟩ ∧
  normalTriangle (mean4 p q r s) r s = ⟨c * n.x, c * n.y, c * n.z⟩ ∧
  normalTriangle (mean4 p q r s) s p = ⟨d * n.x, d * n.y, d * n.z⟩

/-- The area of such a quadrilateral is half the length of the cross product of its diagonals
(the surveyor's formula). -/
theorem C87_quadrilateral_area (p q r s n : P3) (a b c d : ℝ)
    (h : SeenFromCentre p q r s n a b c d) (ha : 0 ≤ a) (hb : 0 ≤ b) (hc : 0 ≤ c) (hd : 0 ≤ d) :
    quadArea p q r s = len (cross (minus r p) (minus s q)) / 2 := by
  obtain ⟨h1, h2, h3, h4⟩ := h
  have e : cross (minus r p) (minus s q) =
      ⟨(a+b+c+d) * n.x, (a+b+c+d) * n.y, (a+b+c+d) * n.z⟩ := by
    simp only [normalTriangle, cross, join, mean4, P3.mk.injEq] at h1 h2 h3 h4
    ext
    · simp only [cross, minus]
      linear_combination h1.1 + h2.1 + h3.1 + h4.1
    · simp only [cross, minus]
      linear_combination h1.2.1 + h2.2.1 + h3.2.1 + h4.2.1
    · simp only [cross, minus]
      linear_combination h1.2.2 + h2.2.2 + h3.2.2 + h4.2.2
  simp only [normalTriangle] at h1 h2 h3 h4
  simp only [quadArea, triangleArea, h1, h2, h3, h4, e, norm_eq_len, len_cross_smul,
    abs_of_nonneg ha, abs_of_nonneg hb, abs_of_nonneg hc, abs_of_nonneg hd,
    abs_of_nonneg (add_nonneg (add_nonneg (add_nonneg ha hb) hc) hd)]
  ring

theorem len_nonneg (v : P3) : 0 ≤ len v := Real.sqrt_nonneg _

theorem unit_smul (n : P3) (c : ℝ) (hc : 0 < c) :
    unit ⟨c * n.x, c * n.y, c * n.z⟩ = unit n := by
  unfold unit
  rw [norm_eq_len, norm_eq_len, len_cross_smul, abs_of_pos hc]
  ext <;> simp only <;> exact mul_div_mul_left _ _ hc.ne'

/-- The unit normal of a triangle has length one and is orthogonal to its sides. -/
theorem C87_triangle_normal (p q r : P3)
    (h : cross (minus q p) (minus r p) ≠ ⟨0, 0, 0⟩) :
    len (unitNormalTriangle p q r) = 1 ∧ inner (unitNormalTriangle p q r) (minus q p) = 0 ∧
    inner (unitNormalTriangle p q r) (minus r p) = 0 := by
  have hj : normalTriangle p q r = cross (minus q p) (minus r p) := rfl
  have hpos : 0 < len (cross (minus q p) (minus r p)) := by
    apply lt_of_le_of_ne (len_nonneg _)
    intro h0
    apply h
    have := (Real.sqrt_eq_zero (by positivity)).1 h0.symm
    set w := cross (minus q p) (minus r p)
    have h1 := sq_nonneg w.x
    have h2 := sq_nonneg w.y
    have h3 := sq_nonneg w.z
    ext
    · exact pow_eq_zero_iff two_ne_zero |>.1 (by linarith)
    · exact pow_eq_zero_iff two_ne_zero |>.1 (by linarith)
    · exact pow_eq_zero_iff two_ne_zero |>.1 (by linarith)
  unfold unitNormalTriangle unit
  rw [norm_eq_len, hj]
  refine ⟨?_, ?_, ?_⟩
  · set w := cross (minus q p) (minus r p)
    have : (⟨w.x / len w, w.y / len w, w.z / len w⟩ : P3) =
        ⟨(len w)⁻¹ * w.x, (len w)⁻¹ * w.y, (len w)⁻¹ * w.z⟩ := by
      ext <;> simp only <;> ring
    rw [this, len_cross_smul, abs_of_pos (inv_pos.2 hpos)]
    field_simp
  · simp only [inner, cross, minus]; ring
  · simp only [inner, cross, minus]; ring

/-- The normal computed for a planar quadrilateral seen from its centre is its unit normal. -/
theorem C87_quadrilateral_normal (p q r s n : P3) (a b c d : ℝ)
    (h : SeenFromCentre p q r s n a b c d) (ha : 0 < a) (hb : 0 < b) (hc : 0 < c) (hd : 0 < d) :
    normalQuad p q r s = unit n := by
  obtain ⟨h1, h2, h3, h4⟩ := h
  simp only [normalQuad, unitNormalTriangle, h1, h2, h3, h4, unit_smul n _ ha, unit_smul n _ hb,
    unit_smul n _ hc, unit_smul n _ hd]
  ext <;> simp only [mean4] <;> ring

/-- A trapezoid in the plane z = 1. -/
example : SeenFromCentre ⟨0,0,1⟩ ⟨4,0,1⟩ ⟨3,2,1⟩ ⟨1,2,1⟩ ⟨0,0,1⟩ 4 3 2 3 ∧
    quadArea ⟨0,0,1⟩ ⟨4,0,1⟩ ⟨3,2,1⟩ ⟨1,2,1⟩ = 6 := by
  have h : SeenFromCentre ⟨0,0,1⟩ ⟨4,0,1⟩ ⟨3,2,1⟩ ⟨1,2,1⟩ ⟨0,0,1⟩ 4 3 2 3 := by
    norm_num [SeenFromCentre, normalTriangle, cross, join, mean4]
  refine ⟨h, ?_⟩
  rw [C87_quadrilateral_area _ _ _ _ _ _ _ _ _ h (by norm_num) (by norm_num) (by norm_num)
    (by norm_num)]
  have : Real.sqrt 144 = 12 := by
    rw [show (144:ℝ) = 12^2 by norm_num]; exact Real.sqrt_sq (by norm_num)
  norm_num [len, cross, minus, this]

/-! ## C88 -/

/-- The centroid recorded for a tetrahedron is its centre of mass. -/
theorem C88_tetrahedron_partial (v : Nat → P3) :
    cellCentroid v 4 = mean4 (v 0) (v 1) (v 2) (v 3) := by
  ext <;> simp [cellCentroid, forN, mean4]

theorem forN8 {σ : Type} (b : Nat → σ → σ) (s : σ) :
    forN 8 b s = b 7 (b 6 (b 5 (b 4 (b 3 (b 2 (b 1 (b 0 s))))))) := rfl

/-- The centroid recorded for a parallelepiped is its centre of mass. -/
theorem C88_parallelepiped_partial (o u v w : P3) (f : P3 → ℝ)
    (hf : f = P3.x ∨ f = P3.y ∨ f = P3.z) :
    |(rows u v w).det| * f (cellCentroid (boxVertex o u v w) 8) =
      moment (boxVertex o u v w) f hexTets := by
  simp only [moment, hexTets, List.map_cons, List.map_nil, List.sum_cons, List.sum_nil,
    C33_tetrahedron, boxVertex, signedTet_at, abs_mul, abs_div, cellCentroid, forN]
  rcases hf with h | h | h <;> subst h <;> simp only [at'] <;> norm_num <;> ring

/-- The centroid recorded for a prism is its centre of mass. -/
theorem C88_prism_partial (o u v w : P3) (f : P3 → ℝ)
    (hf : f = P3.x ∨ f = P3.y ∨ f = P3.z) :
    |(rows u v w).det| / 2 * f (cellCentroid (prismVertex o u v w) 6) =
      moment (prismVertex o u v w) f wedgeTets := by
  simp only [moment, wedgeTets, List.map_cons, List.map_nil, List.sum_cons, List.sum_nil,
    C33_tetrahedron, prismVertex, signedTet_at, abs_mul, abs_div, cellCentroid, forN]
  rcases hf with h | h | h <;> subst h <;> simp only [at'] <;> norm_num <;> ring

/-- C88 fails for pyramids: whenever the pyramid is not flat, the recorded centroid differs from
the centre of mass (it is at one fifth of the height instead of one quarter). -/
theorem C88_pyramid_wrong (o u v w : P3) (hne : (rows u v w).det ≠ 0) :
    ∃ f : P3 → ℝ, (f = P3.x ∨ f = P3.y ∨ f = P3.z) ∧
      |(rows u v w).det| / 3 * f (cellCentroid (pyramidVertex o u v w) 5) ≠
        moment (pyramidVertex o u v w) f pyramidTets := by
  by_contra hcon
  push Not at hcon
  have hpos : 0 < |(rows u v w).det| := abs_pos.2 hne
  have key : ∀ f : P3 → ℝ, (f = P3.x ∨ f = P3.y ∨ f = P3.z) →
      2 * f w = f u + f v := by
    intro f hf
    have h := hcon f hf
    simp only [moment, pyramidTets, List.map_cons, List.map_nil, List.sum_cons, List.sum_nil,
      C33_tetrahedron, pyramidVertex, signedTet_at, abs_mul, abs_div, cellCentroid, forN] at h
    apply mul_left_cancel₀ hpos.ne'
    rcases hf with e | e | e <;> subst e <;> simp only [at'] at h <;> norm_num at h <;> linarith
  apply hne
  have hx := key P3.x (by simp)
  have hy := key P3.y (by simp)
  have hz := key P3.z (by simp)
  rw [Matrix.det_fin_three]
  simp only [rows]
  simp
  have ex : w.x = (u.x + v.x) / 2 := by linarith
  have ey : w.y = (u.y + v.y) / 2 := by linarith
  have ez : w.z = (u.z + v.z) / 2 := by linarith
  rw [ex, ey, ez]
  ring

example : (rows ⟨1,0,0⟩ ⟨0,1,0⟩ ⟨0,0,1⟩).det ≠ 0 := by
  simp [rows, Matrix.det_fin_three]

/-! ## C89 -/

/-- If no closure exceeds the size reserved, every closure is saved and no row is mixed up. -/
theorem C89_closures_saved_partial (c : Closures) (l : List (Nat × List Int × Nat))
    (ha : c.allocated = true) (hsz : ∀ t ∈ l, t.2.2 ≤ c.max)
    (hlen : ∀ t ∈ l, t.2.1.length = 2 * t.2.2) (hd : (l.map (·.1)).Nodup) :
    ∃ c', saveClosures c l = .ok c' ∧
      (∀ t ∈ l, c'.size t.1 = t.2.2 ∧ ∀ i < 2 * t.2.2, c'.rows t.1 i = t.2.1.getD i 0) ∧
      (∀ e, e ∉ l.map (·.1) → c'.size e = c.size e ∧ c'.rows e = c.rows e) := by
  induction l generalizing c with
  | nil => exact ⟨c, rfl, by simp, fun e _ => ⟨rfl, rfl⟩⟩
  | cons t l ih =>
    obtain ⟨e, p, n⟩ := t
    have hn : n ≤ c.max := hsz (e, p, n) (by simp)
    have hstep : saveClosure c e p n = .ok
        { c with size := wr c.size e n
                 rows := wr c.rows e (forN (2*n) (fun i r => wr r i (p.getD i 0)) (c.rows e)) } := by
      simp only [saveClosure]
      have hn' : ¬ n > c.max := by omega
      simp only [if_neg hn', if_pos ha]
    simp only [saveClosures, hstep, Res.bind]
    simp only [List.map_cons, List.nodup_cons] at hd
    obtain ⟨c', h1, h2, h3⟩ := ih
      { c with size := wr c.size e n
               rows := wr c.rows e (forN (2*n) (fun i r => wr r i (p.getD i 0)) (c.rows e)) }
      ha (fun t ht => hsz t (by simp [ht]))
      (fun t ht => hlen t (by simp [ht])) hd.2
    refine ⟨c', h1, ?_, ?_⟩
    · intro t ht
      rcases List.mem_cons.1 ht with h | h
      · subst h
        obtain ⟨a, b⟩ := h3 e hd.1
        refine ⟨by rw [a]; simp, ?_⟩
        intro i hi
        rw [b]
        simp only [wr_same]
        rw [forN_fill, if_pos hi]
      · exact h2 t h
    · intro e' he'
      simp only [List.map_cons, List.mem_cons, not_or] at he'
      obtain ⟨a, b⟩ := h3 e' he'.2
      exact ⟨by rw [a]; exact wr_other _ _ he'.1, by rw [b]; exact wr_other _ _ he'.1⟩

/-- C89 fails: as soon as one closure exceeds the size reserved, the code that should enlarge the
table leaves the caller with freed memory. -/
theorem C89_large_closure_undefined (c : Closures) (l : List (Nat × List Int × Nat))
    (h : ∃ t ∈ l, c.max < t.2.2) : saveClosures c l = .ub := by
  induction l generalizing c with
  | nil => simp at h
  | cons t l ih =>
    obtain ⟨e, p, n⟩ := t
    by_cases hn : n > c.max
    · simp only [saveClosures, saveClosure, Res.bind, if_pos hn, increaseClosures,
        Bool.false_eq_true, if_false]
    · simp only [saveClosures, saveClosure, if_neg hn]
      by_cases ha : c.allocated = true
      · rw [if_pos ha]
        simp only [Res.bind]
        apply ih
        obtain ⟨t, ht, h⟩ := h
        rcases List.mem_cons.1 ht with h' | h'
        · subst h'; exact absurd h hn
        · exact ⟨t, h', h⟩
      · rw [if_neg ha]; rfl

example : ∃ l : List (Nat × List Int × Nat), l.length = 2 ∧
    (∀ t ∈ l, t.2.1.length = 2 * t.2.2) ∧ (l.map (·.1)).Nodup ∧ (∀ t ∈ l, t.2.2 ≤ 432) :=
  ⟨[(0, [5, 0, 6, 0], 2), (1, [7, 0], 1)], by decide⟩

end TDy.Geo.Props
