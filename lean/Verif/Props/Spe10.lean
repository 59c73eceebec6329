import Mathlib.Tactic.Ring
import Mathlib.Tactic.Linarith
import Mathlib.Tactic.NormNum
import Mathlib.Tactic.IntervalCases
import Mathlib.Tactic.Positivity
import Mathlib.Algebra.BigOperators.Ring.Finset
import Mathlib.Algebra.Order.BigOperators.Group.Finset
import Verif.Spec.Spe10

/-!
# C221: the program for the SPE10 benchmark gives each cell its turned permeabilities
-/

namespace TDy.Spe10

open TDy Finset

/-! ## The rotation -/

theorem list_sum_range (n : Nat) (f : Nat → ℝ) : ((List.range n).map f).sum = ∑ k ∈ range n, f k := by
  induction n with
  | zero => simp
  | succ n ih => rw [List.range_succ, List.map_append, List.sum_append, ih, sum_range_succ]; simp

theorem mat_gemmNN (n : Nat) (A B : Nat → ℝ) (i j : Nat) (hi : i < n) :
    mat n (gemmNN n A B) i j = ∑ k ∈ range n, mat n A i k * mat n B k j := by
  have h1 : (j * n + i) % n = i := by
    rw [Nat.add_comm, Nat.add_mul_mod_self_right, Nat.mod_eq_of_lt hi]
  have h2 : (j * n + i) / n = j := by
    rw [Nat.add_comm, Nat.add_mul_div_right _ _ (by omega), Nat.div_eq_of_lt hi, Nat.zero_add]
  unfold mat gemmNN
  rw [list_sum_range, h1, h2]

theorem mat_gemmNT (n : Nat) (A B : Nat → ℝ) (i j : Nat) (hi : i < n) :
    mat n (gemmNT n A B) i j = ∑ k ∈ range n, mat n A i k * mat n B j k := by
  have h1 : (j * n + i) % n = i := by
    rw [Nat.add_comm, Nat.add_mul_mod_self_right, Nat.mod_eq_of_lt hi]
  have h2 : (j * n + i) / n = j := by
    rw [Nat.add_comm, Nat.add_mul_div_right _ _ (by omega), Nat.div_eq_of_lt hi, Nat.zero_add]
  unfold mat gemmNT
  rw [list_sum_range, h1, h2]

/-- **C221.** In two dimensions `Rotation` fills the four entries of the rotation by the angle in degrees,
whatever the array held and whatever axis is given. -/
theorem C221_rotation_2d (R : Nat → ℝ) (ang : ℝ) (axis : Nat) :
    let t := ang / 180 * Real.pi
    mat 2 (rotation R ang axis 2) 0 0 = Real.cos t ∧ mat 2 (rotation R ang axis 2) 0 1 = -Real.sin t ∧
    mat 2 (rotation R ang axis 2) 1 0 = Real.sin t ∧ mat 2 (rotation R ang axis 2) 1 1 = Real.cos t := by
  simp [mat, rotation, forN, wr]

/-- **C221.** In three dimensions the matrix of `Rotation` has orthonormal columns for every angle and every
axis, and keeps the axis. -/
theorem C221_rotation_3d (R : Nat → ℝ) (ang : ℝ) (axis : Nat) (ha : axis < 3) :
    Orthonormal 3 (mat 3 (rotation R ang axis 3)) ∧
    ∀ i, i < 3 → mat 3 (rotation R ang axis 3) i axis = if i = axis then 1 else 0 := by
  have hs := Real.sin_sq_add_cos_sq (ang / 180 * Real.pi)
  constructor
  · intro i j hi hj
    interval_cases axis <;> interval_cases i <;> interval_cases j <;>
      simp [mat, rotation, forN, wr, sum_range_succ] <;> nlinarith
  · intro i hi
    interval_cases axis <;> interval_cases i <;> simp [mat, rotation, forN, wr]

example : (1 : Nat) < 3 := by omega

theorem orthonormal_2d (R : Nat → ℝ) (ang : ℝ) (axis : Nat) :
    Orthonormal 2 (mat 2 (rotation R ang axis 2)) := by
  have hs := Real.sin_sq_add_cos_sq (ang / 180 * Real.pi)
  obtain ⟨a, b, c, d⟩ := C221_rotation_2d R ang axis
  intro i j hi hj
  interval_cases i <;> interval_cases j <;>
    simp only [sum_range_succ, sum_range_zero, zero_add, a, b, c, d] <;> norm_num <;> nlinarith

theorem orthonormal_mul (n : Nat) (A B C : Nat → Nat → ℝ) (hA : Orthonormal n A) (hB : Orthonormal n B)
    (hC : ∀ i j, i < n → C i j = ∑ k ∈ range n, A i k * B k j) : Orthonormal n C := by
  intro i j hi hj
  have h1 : ∑ k ∈ range n, C k i * C k j =
      ∑ k ∈ range n, ∑ l ∈ range n, ∑ m ∈ range n, B l i * B m j * (A k l * A k m) := by
    apply sum_congr rfl
    intro k hk
    rw [hC k i (mem_range.1 hk), hC k j (mem_range.1 hk), sum_mul_sum]
    apply sum_congr rfl; intro l _
    apply sum_congr rfl; intro m _
    ring
  rw [h1, sum_comm]
  have h2 : ∀ l ∈ range n, ∑ k ∈ range n, ∑ m ∈ range n, B l i * B m j * (A k l * A k m) =
      B l i * B l j := by
    intro l hl
    rw [sum_comm]
    have h3 : ∀ m ∈ range n, ∑ k ∈ range n, B l i * B m j * (A k l * A k m) =
        if l = m then B l i * B m j else 0 := by
      intro m hm
      rw [← mul_sum, hA l m (mem_range.1 hl) (mem_range.1 hm)]
      split_ifs <;> simp
    rw [sum_congr rfl h3, sum_ite_eq, if_pos hl]
  rw [sum_congr rfl h2]
  exact hB i j hi hj

/-- **C221.** The frame in which the permeabilities are given has orthonormal directions, for every angle,
in two and three dimensions. -/
theorem C221_frame (m0 m1 : Nat → ℝ) (ang : ℝ) (dim : Nat) (hd : dim = 2 ∨ dim = 3) :
    Orthonormal dim (mat dim (frame m0 m1 ang dim)) := by
  rcases hd with rfl | rfl
  · simpa [frame] using orthonormal_2d m0 ang 2
  · have : frame m0 m1 ang 3 = gemmNN 3 (rotation m0 ang 1 3) (rotation m1 (0.5 * ang) 2 3) := by
      simp [frame]
    rw [this]
    exact orthonormal_mul 3 _ _ _ (C221_rotation_3d m0 ang 1 (by omega)).1
      (C221_rotation_3d m1 (0.5 * ang) 2 (by omega)).1 (fun i j hi => mat_gemmNN 3 _ _ i j hi)

/-- **C221.** The directions in three dimensions: first turned by half the angle about the vertical axis,
then by the angle about the second axis. -/
theorem C221_frame_3d (m0 m1 : Nat → ℝ) (ang : ℝ) :
    let t := ang / 180 * Real.pi
    let u := ang / 2 / 180 * Real.pi
    let R := mat 3 (frame m0 m1 ang 3)
    (R 0 0 = Real.cos t * Real.cos u ∧ R 1 0 = Real.sin u ∧ R 2 0 = Real.sin t * Real.cos u) ∧
    (R 0 1 = -(Real.cos t * Real.sin u) ∧ R 1 1 = Real.cos u ∧ R 2 1 = -(Real.sin t * Real.sin u)) ∧
    (R 0 2 = -Real.sin t ∧ R 1 2 = 0 ∧ R 2 2 = Real.cos t) := by
  have hf : frame m0 m1 ang 3 = gemmNN 3 (rotation m0 ang 1 3) (rotation m1 (ang / 2) 2 3) := by
    have : (0.5 : ℝ) * ang = ang / 2 := by norm_num; ring
    simp only [frame, show (3 : Nat) ≠ 2 by omega, if_false, this]
  dsimp only
  rw [hf]
  refine ⟨⟨?_, ?_, ?_⟩, ⟨?_, ?_, ?_⟩, ⟨?_, ?_, ?_⟩⟩ <;> rw [mat_gemmNN 3 _ _ _ _ (by omega)] <;>
    simp [mat, rotation, forN, wr, sum_range_succ]

/-! ## The tensors -/

theorem mat_diagonal (dim : Nat) (hd : dim = 2 ∨ dim = 3) (k : Nat → ℝ) (i j : Nat) (hi : i < dim)
    (hj : j < dim) : mat dim (diagonal dim k) i j = if i = j then principal dim k i else 0 := by
  rcases hd with rfl | rfl
  · interval_cases i <;> interval_cases j <;> simp [mat, diagonal, wr, principal]
  · interval_cases i <;> interval_cases j <;> simp [mat, diagonal, wr, principal, forN]

/-- The turned tensor written out: the sum over the directions of the frame. -/
theorem turned_eq (dim : Nat) (hd : dim = 2 ∨ dim = 3) (R k : Nat → ℝ) (i j : Nat) (hi : i < dim)
    (_hj : j < dim) :
    mat dim (turned dim R (diagonal dim k)) i j =
      ∑ d ∈ range dim, principal dim k d * mat dim R i d * mat dim R j d := by
  unfold turned
  rw [mat_gemmNN dim _ _ i j hi]
  apply sum_congr rfl
  intro d hdm
  have hdl := mem_range.1 hdm
  rw [mat_gemmNT dim _ _ d j hdl]
  have : ∀ l ∈ range dim, mat dim (diagonal dim k) d l * mat dim R j l =
      if d = l then principal dim k d * mat dim R j l else 0 := by
    intro l hl
    rw [mat_diagonal dim hd k d l hdl (mem_range.1 hl)]
    split_ifs <;> simp
  rw [sum_congr rfl this, sum_ite_eq, if_pos hdm]
  ring

/-- **C221.** The tensor given to the library is symmetric. -/
theorem C221_symmetric (dim : Nat) (hd : dim = 2 ∨ dim = 3) (R k : Nat → ℝ) (i j : Nat) (hi : i < dim)
    (hj : j < dim) : mat dim (turned dim R (diagonal dim k)) i j =
      mat dim (turned dim R (diagonal dim k)) j i := by
  rw [turned_eq dim hd R k i j hi hj, turned_eq dim hd R k j i hj hi]
  apply sum_congr rfl
  intro d _
  ring

/-- **C221.** The directions of the frame are the principal directions of the tensor, and the permeabilities
along them are those of the file: in 3D the three of the cell, in 2D the first and the third. -/
theorem C221_principal (m0 m1 : Nat → ℝ) (ang : ℝ) (dim : Nat) (hd : dim = 2 ∨ dim = 3) (k : Nat → ℝ)
    (d i : Nat) (hdd : d < dim) (hi : i < dim) :
    times dim (mat dim (turned dim (frame m0 m1 ang dim) (diagonal dim k)))
      (fun j => mat dim (frame m0 m1 ang dim) j d) i =
      principal dim k d * mat dim (frame m0 m1 ang dim) i d := by
  have ho := C221_frame m0 m1 ang dim hd
  generalize frame m0 m1 ang dim = R at *
  unfold times
  have h1 : ∀ j ∈ range dim, mat dim (turned dim R (diagonal dim k)) i j * mat dim R j d =
      ∑ e ∈ range dim, principal dim k e * mat dim R i e * (mat dim R j e * mat dim R j d) := by
    intro j hj
    rw [turned_eq dim hd R k i j hi (mem_range.1 hj), sum_mul]
    apply sum_congr rfl; intro e _; ring
  rw [sum_congr rfl h1, sum_comm]
  have h2 : ∀ e ∈ range dim,
      ∑ j ∈ range dim, principal dim k e * mat dim R i e * (mat dim R j e * mat dim R j d) =
      if d = e then principal dim k e * mat dim R i e else 0 := by
    intro e he
    rw [← mul_sum, ho e d (mem_range.1 he) hdd]
    by_cases h : e = d
    · simp [h]
    · simp [h, Ne.symm h]
  rw [sum_congr rfl h2, sum_ite_eq, if_pos (mem_range.2 hdd)]

/-- **C221.** With positive permeabilities no direction has a negative permeability. -/
theorem C221_nonneg (dim : Nat) (hd : dim = 2 ∨ dim = 3) (R k v : Nat → ℝ) (hk : ∀ d, d < 3 → 0 ≤ k d) :
    0 ≤ ∑ i ∈ range dim, v i * times dim (mat dim (turned dim R (diagonal dim k))) v i := by
  have hp : ∀ d, d < dim → 0 ≤ principal dim k d := by
    intro d h
    unfold principal
    split_ifs
    · exact hk 2 (by omega)
    · exact hk d (by omega)
  have h1 : ∑ i ∈ range dim, v i * times dim (mat dim (turned dim R (diagonal dim k))) v i =
      ∑ d ∈ range dim, principal dim k d * (∑ i ∈ range dim, mat dim R i d * v i) ^ 2 := by
    have e1 : ∀ i ∈ range dim, v i * times dim (mat dim (turned dim R (diagonal dim k))) v i =
        ∑ j ∈ range dim, ∑ d ∈ range dim,
          principal dim k d * ((mat dim R i d * v i) * (mat dim R j d * v j)) := by
      intro i hi
      unfold times
      rw [mul_sum]
      apply sum_congr rfl; intro j hj
      rw [turned_eq dim hd R k i j (mem_range.1 hi) (mem_range.1 hj), sum_mul, mul_sum]
      apply sum_congr rfl; intro d _; ring
    rw [sum_congr rfl e1]
    have e2 : ∀ i ∈ range dim, ∑ j ∈ range dim, ∑ d ∈ range dim,
        principal dim k d * ((mat dim R i d * v i) * (mat dim R j d * v j)) =
        ∑ d ∈ range dim, ∑ j ∈ range dim,
        principal dim k d * ((mat dim R i d * v i) * (mat dim R j d * v j)) := fun i _ => sum_comm
    rw [sum_congr rfl e2, sum_comm]
    apply sum_congr rfl
    intro d _
    rw [pow_two, sum_mul_sum, mul_sum]
    apply sum_congr rfl; intro i _
    rw [mul_sum]
  rw [h1]
  exact sum_nonneg fun d h => mul_nonneg (hp d (mem_range.1 h)) (sq_nonneg _)

example : ∀ d, d < 3 → 0 ≤ (fun d : Nat => ((d : ℝ) + 1)) d := by
  intro d _; positivity

/-! ## Reading the file -/

theorem readFile_ok (cap : Nat) (vals : List ℝ) (i : Nat) (b : Nat → Option ℝ)
    (h : i + vals.length ≤ cap) :
    readFile cap (vals.map some) i b =
      some fun q => if i ≤ q ∧ q < i + vals.length then vals[q - i]? else b q := by
  induction vals generalizing i b with
  | nil =>
    simp only [List.map_nil, readFile, List.length_nil]
    congr 1; funext q
    rw [if_neg (by omega)]
  | cons v vals ih =>
    simp only [List.length_cons] at h
    simp only [List.map_cons, readFile]
    rw [if_pos (by omega), ih (i + 1) _ (by omega)]
    congr 1; funext q
    simp only [List.length_cons]
    by_cases h1 : q = i
    · subst h1
      rw [if_neg (by omega), if_pos (by omega)]
      simp
    · by_cases h2 : i + 1 ≤ q ∧ q < i + 1 + vals.length
      · rw [if_pos h2, if_pos (by omega)]
        have : q - i = (q - (i + 1)) + 1 := by omega
        rw [this, List.getElem?_cons_succ]
      · rw [if_neg h2, if_neg (by omega), wr_other _ _ h1]

/-- **C221.** A file with the right number of numbers, or fewer, is read in order. -/
theorem C221_read (vals : List ℝ) (h : vals.length ≤ 3 * 85 * 220 * 60) :
    buffer (some (vals.map some)) = some fun q => vals[q]? := by
  unfold buffer
  simp only
  rw [readFile_ok _ vals 0 _ (by omega)]
  congr 1; funext q
  split_ifs with hq
  · simp
  · rw [List.getElem?_eq_none (by omega)]

example : ([1, 2, 3] : List ℝ).length ≤ 3 * 85 * 220 * 60 := by norm_num

theorem readFile_long (cap : Nat) (vals : List ℝ) (i : Nat) (b : Nat → Option ℝ)
    (h : cap < i + vals.length) (hi : i ≤ cap) : readFile cap (vals.map some) i b = none := by
  induction vals generalizing i b with
  | nil => simp at h; omega
  | cons v vals ih =>
    simp only [List.length_cons] at h
    simp only [List.map_cons, readFile]
    split_ifs with h1
    · exact ih (i + 1) _ (by omega) (by omega)
    · rfl

/-- **C221, violated.** A longer file makes the program write behind its buffer. -/
theorem C221_long_file_violated (vals : List ℝ) (h : 3 * 85 * 220 * 60 < vals.length) :
    buffer (some (vals.map some)) = none := by
  unfold buffer
  exact readFile_long _ vals 0 _ (by omega) (by omega)

example : ∃ vals : List ℝ, 3 * 85 * 220 * 60 < vals.length :=
  ⟨List.replicate (3 * 85 * 220 * 60 + 1) 1, by rw [List.length_replicate]; omega⟩

theorem readFile_word (cap : Nat) (words : List (Option ℝ)) (i : Nat) (b : Nat → Option ℝ)
    (h : none ∈ words) : readFile cap words i b = none := by
  induction words generalizing i b with
  | nil => simp at h
  | cons w words ih =>
    cases w with
    | none => rfl
    | some v =>
      simp only [readFile]
      split_ifs
      · exact ih _ _ (by simpa using h)
      · rfl

/-- **C221, violated.** A file with a word that is not a number never leaves the loop in a defined state. -/
theorem C221_word_violated (words : List (Option ℝ)) (h : none ∈ words) : buffer (some words) = none := by
  unfold buffer
  exact readFile_word _ _ _ _ h

example : none ∈ [some (1 : ℝ), none] := by simp

/-- **C221, violated.** Without the file no entry is ever written, and the program goes on: the permeabilities
of all cells are whatever the memory held. -/
theorem C221_no_file_violated : ∃ b, buffer none = some b ∧ ∀ q, b q = none := ⟨_, rfl, fun _ => rfl⟩

/-! ## The entry of a cell -/

theorem toInt_nonneg (r : ℝ) (h : 0 ≤ r) : toInt r = ⌊r⌋ := if_pos h

theorem toInt_range (r : ℝ) (n : ℤ) (h0 : 0 ≤ r) (h1 : r < n) : 0 ≤ toInt r ∧ toInt r < n := by
  rw [toInt_nonneg r h0]
  exact ⟨Int.floor_nonneg.2 h0, Int.floor_lt.2 h1⟩

/-- **C221.** The entries looked up for a cell with its centroid in the box are entries of the buffer. -/
theorem C221_inside (X : Nat → ℝ) (d : ℤ) (hd0 : 0 ≤ d) (hd : d < 3) (h : InBox (X 0) (X 1) (X 2)) :
    0 ≤ place d (cellOf 3 X) ∧ place d (cellOf 3 X) < 3 * 85 * 220 * 60 := by
  obtain ⟨a, b, c, e, f, g⟩ := h
  have h1 := toInt_range ((X 0 - -600) / 20) 60 (by linarith) (by push_cast; linarith)
  have h2 := toInt_range ((X 1 - -1100) / 10) 220 (by linarith) (by push_cast; linarith)
  have h3 := toInt_range ((X 2 - -170) / 2) 85 (by linarith) (by push_cast; linarith)
  simp only [place, cellOf, show (3 : Nat) ≠ 2 by omega, if_false]
  omega

example : InBox 0 0 (-1) := by unfold InBox; norm_num

/-- **C221.** In two dimensions likewise, for the vertical section the program uses. -/
theorem C221_inside_2d (X : Nat → ℝ) (d : ℤ) (hd0 : 0 ≤ d) (hd : d < 3) (h : InBox (X 0) 0 (X 1)) :
    0 ≤ place d (cellOf 2 X) ∧ place d (cellOf 2 X) < 3 * 85 * 220 * 60 := by
  obtain ⟨a, b, c, e, f, g⟩ := h
  have h1 := toInt_range ((X 0 - -600) / 20) 60 (by linarith) (by push_cast; linarith)
  have h3 := toInt_range ((X 1 - -170) / 2) 85 (by linarith) (by push_cast; linarith)
  simp only [place, cellOf, if_true]
  omega

/-- The number of the interval in which a point lies. -/
theorem toInt_interval (r : ℝ) (a : Nat) (h0 : (a : ℝ) ≤ r) (h1 : r < a + 1) : toInt r = a := by
  have : (0 : ℝ) ≤ a := Nat.cast_nonneg a
  rw [toInt_nonneg r (by linarith), Int.floor_eq_iff]
  push_cast
  exact ⟨h0, h1⟩

/-- **C221.** A cell whose centroid lies in column `a`, row `b` and the `l`-th layer from the top of the
benchmark's grid gets the three permeabilities the file lists for these, whatever mesh is used. -/
theorem C221_entry (X : Nat → ℝ) (a b l d : Nat) (ha : a < 60) (hb : b < 220) (hl : l < 85) (hd : d < 3)
    (hx : -600 + 20 * (a : ℝ) ≤ X 0 ∧ X 0 < -600 + 20 * ((a : ℝ) + 1))
    (hy : -1100 + 10 * (b : ℝ) ≤ X 1 ∧ X 1 < -1100 + 10 * ((b : ℝ) + 1))
    (hz : -2 * ((l : ℝ) + 1) ≤ X 2 ∧ X 2 < -2 * (l : ℝ)) (vals : List ℝ)
    (hv : vals.length = 3 * 85 * 220 * 60) :
    ∃ buf, buffer (some (vals.map some)) = some buf ∧
      buf (place d (cellOf 3 X)).toNat = some (listed (fun q => vals.getD q 0) d a b l) := by
  refine ⟨_, C221_read vals (by omega), ?_⟩
  have h1 := toInt_interval ((X 0 - -600) / 20) a (by linarith) (by linarith)
  have h2 := toInt_interval ((X 1 - -1100) / 10) b (by linarith) (by linarith)
  have hc : ((84 - l : Nat) : ℝ) = 84 - (l : ℝ) := by
    rw [Nat.cast_sub (by omega)]; norm_num
  have h3 := toInt_interval ((X 2 - -170) / 2) (84 - l) (by rw [hc]; linarith) (by rw [hc]; linarith)
  have hp : (place d (cellOf 3 X)).toNat = ((d * 85 + l) * 220 + b) * 60 + a := by
    simp only [place, cellOf, show (3 : Nat) ≠ 2 by omega, if_false, h1, h2, h3]
    omega
  have hlt : ((d * 85 + l) * 220 + b) * 60 + a < vals.length := by omega
  rw [hp, listed]
  simp only [List.getD_eq_getElem?_getD, List.getElem?_eq_getElem hlt, Option.getD_some]

example : let X : Nat → ℝ := fun i => if i = 0 then -570 else if i = 1 then -1095 else -169
    (-600 + 20 * ((1 : Nat) : ℝ) ≤ X 0 ∧ X 0 < -600 + 20 * (((1 : Nat) : ℝ) + 1)) ∧
    (-1100 + 10 * ((0 : Nat) : ℝ) ≤ X 1 ∧ X 1 < -1100 + 10 * (((0 : Nat) : ℝ) + 1)) ∧
    (-2 * (((84 : Nat) : ℝ) + 1) ≤ X 2 ∧ X 2 < -2 * ((84 : Nat) : ℝ)) := by
  norm_num

/-- **C221.** In two dimensions a cell in column `a` and the `l`-th layer from the top gets the
permeabilities of the first row. -/
theorem C221_entry_2d (X : Nat → ℝ) (a l d : Nat) (ha : a < 60) (hl : l < 85) (hd : d < 3)
    (hx : -600 + 20 * (a : ℝ) ≤ X 0 ∧ X 0 < -600 + 20 * ((a : ℝ) + 1))
    (hz : -2 * ((l : ℝ) + 1) ≤ X 1 ∧ X 1 < -2 * (l : ℝ)) (vals : List ℝ)
    (hv : vals.length = 3 * 85 * 220 * 60) :
    ∃ buf, buffer (some (vals.map some)) = some buf ∧
      buf (place d (cellOf 2 X)).toNat = some (listed (fun q => vals.getD q 0) d a 0 l) := by
  refine ⟨_, C221_read vals (by omega), ?_⟩
  have h1 := toInt_interval ((X 0 - -600) / 20) a (by linarith) (by linarith)
  have hc : ((84 - l : Nat) : ℝ) = 84 - (l : ℝ) := by
    rw [Nat.cast_sub (by omega)]; norm_num
  have h3 := toInt_interval ((X 1 - -170) / 2) (84 - l) (by rw [hc]; linarith) (by rw [hc]; linarith)
  have hp : (place d (cellOf 2 X)).toNat = ((d * 85 + l) * 220 + 0) * 60 + a := by
    simp only [place, cellOf, if_true, h1, h3]
    omega
  have hlt : ((d * 85 + l) * 220 + 0) * 60 + a < vals.length := by omega
  rw [hp, listed]
  simp only [List.getD_eq_getElem?_getD, List.getElem?_eq_getElem hlt, Option.getD_some]

example : let X : Nat → ℝ := fun i => if i = 0 then -570 else -1
    (-600 + 20 * ((1 : Nat) : ℝ) ≤ X 0 ∧ X 0 < -600 + 20 * (((1 : Nat) : ℝ) + 1)) ∧
    (-2 * (((0 : Nat) : ℝ) + 1) ≤ X 1 ∧ X 1 < -2 * ((0 : Nat) : ℝ)) := by
  norm_num

/-! ## The boundary pressure -/

/-- **C221.** In three dimensions the boundary pressure of a point of the box lies between 1/2 and 7/2. -/
theorem C221_pressure_3d (x y z : ℝ) (h : InBox x y z) :
    ∃ p, pressure [x, y, z] = some p ∧ 1 / 2 ≤ p ∧ p ≤ 7 / 2 := by
  obtain ⟨a, b, c, e, f, g⟩ := h
  refine ⟨_, rfl, ?_, ?_⟩ <;> norm_num <;> linarith

/-- **C221.** From one end of the box to the other the boundary pressure rises by one in each of the first
two directions and falls by one in the third. -/
theorem C221_pressure_slopes (x y z : ℝ) :
    ∃ p, pressure [x, y, z] = some p ∧ pressure [x + 1200, y, z] = some (p + 1) ∧
      pressure [x, y + 2200, z] = some (p + 1) ∧ pressure [x, y, z + 170] = some (p - 1) := by
  refine ⟨_, rfl, ?_, ?_, ?_⟩ <;> simp only [pressure, Option.some.injEq] <;> linarith

/-- **C221, violated.** In two dimensions, the default of the program, the boundary pressure reads a third
coordinate that points do not have. -/
theorem C221_pressure_2d_violated (x y : ℝ) : pressure [x, y] = none := rfl

end TDy.Spe10
