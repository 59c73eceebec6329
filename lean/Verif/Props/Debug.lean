import Mathlib.Tactic.Ring
import Mathlib.Tactic.Linarith
import Mathlib.Tactic.NormNum
import Mathlib.Tactic.IntervalCases
import Mathlib.Data.List.Range
import Verif.Spec.Debug

/-!
# C220: the debugging helpers tell the truth about a matrix
-/

namespace TDy.Debug

/-- A loop that appends is a `flatMap`. -/
theorem forN_append {α : Type} (n : Nat) (g : Nat → List α) (out : List α) :
    forN n (fun i out => out ++ g i) out = out ++ (List.range n).flatMap g := by
  induction n with
  | zero => simp [forN]
  | succ n ih => simp [forN, ih, List.range_succ, List.append_assoc]

theorem flatMap_single {α β : Type} (l : List α) (f : α → β) :
    l.flatMap (fun a => [f a]) = l.map f := by
  induction l with
  | nil => rfl
  | cons a l ih => simp [ih]

/-! ## CheckSymmetric -/

/-- The pairs that are too far from symmetric. -/
noncomputable def bad (A : Nat → ℝ) (n : Nat) (p : Nat × Nat) : Bool :=
  decide (|byRows A n p.1 p.2 - byRows A n p.2 p.1| > 1 / 10 ^ 12)

theorem check_row (A : Nat → ℝ) (n i : Nat) (m : Nat) (s : Check) :
    forN m (fun j s =>
      if |A (i * n + j) - A (j * n + i)| > 1 / 10 ^ 12 then
        ({ ierr := 64, msgs := s.msgs ++ [(i, j)] } : Check)
      else s) s =
    { ierr := if (((List.range m).map fun j => (i, j)).filter (bad A n)) = [] then s.ierr else 64,
      msgs := s.msgs ++ ((List.range m).map fun j => (i, j)).filter (bad A n) } := by
  induction m with
  | zero => simp [forN]
  | succ m ih =>
    simp only [forN]
    rw [ih, List.range_succ, List.map_append, List.filter_append]
    by_cases h : |A (i * n + m) - A (m * n + i)| > 1 / 10 ^ 12
    · have hb : bad A n (i, m) = true := by simpa [bad, byRows] using h
      rw [if_pos h]
      simp [hb, List.append_assoc]
    · have hb : bad A n (i, m) = false := by simpa [bad, byRows] using h
      rw [if_neg h]
      simp [hb]

theorem check_rows (A : Nat → ℝ) (n m : Nat) :
    forN m (fun i s =>
      forN n (fun j s =>
        if |A (i * n + j) - A (j * n + i)| > 1 / 10 ^ 12 then
          ({ ierr := 64, msgs := s.msgs ++ [(i, j)] } : Check)
        else s) s) { ierr := 0, msgs := [] } =
    { ierr := if (pairs m n).filter (bad A n) = [] then 0 else 64,
      msgs := (pairs m n).filter (bad A n) } := by
  induction m with
  | zero => simp [forN, pairs]
  | succ m ih =>
    simp only [forN]
    rw [ih, check_row]
    have hp : pairs (m + 1) n = pairs m n ++ (List.range n).map fun j => (m, j) := by
      simp [pairs, List.range_succ]
    rw [hp, List.filter_append]
    by_cases h1 : (pairs m n).filter (bad A n) = []
    · simp [h1]
    · by_cases h2 : ((List.range n).map fun j => (m, j)).filter (bad A n) = []
      · simp [h1, h2]
      · simp only [h1, h2, List.append_eq_nil_iff, if_false, false_and]

theorem checkSymmetric_eq (A : Nat → ℝ) (n : Nat) :
    checkSymmetric A n =
      { ierr := if (pairs n n).filter (bad A n) = [] then 0 else 64,
        msgs := (pairs n n).filter (bad A n) } := check_rows A n n

theorem mem_pairs (nr nc : Nat) (p : Nat × Nat) : p ∈ pairs nr nc ↔ p.1 < nr ∧ p.2 < nc := by
  obtain ⟨a, b⟩ := p
  simp only [pairs, List.mem_flatMap, List.mem_range, List.mem_map, Prod.mk.injEq]
  constructor
  · rintro ⟨i, hi, j, hj, rfl, rfl⟩; exact ⟨hi, hj⟩
  · rintro ⟨hi, hj⟩; exact ⟨a, hi, b, hj, rfl, rfl⟩

/-- **C220.** `CheckSymmetric` returns 0 exactly if no entry differs from its mirror image by more than
1e-12, and 64 otherwise. -/
theorem C220_check (A : Nat → ℝ) (n : Nat) :
    ((checkSymmetric A n).ierr = 0 ↔
      ∀ i j, i < n → j < n → |byRows A n i j - byRows A n j i| ≤ 1 / 10 ^ 12) ∧
    ((checkSymmetric A n).ierr = 0 ∨ (checkSymmetric A n).ierr = 64) := by
  rw [checkSymmetric_eq]
  constructor
  · dsimp only
    constructor
    · intro h i j hi hj
      split_ifs at h with h'
      rw [List.filter_eq_nil_iff] at h'
      have := h' (i, j) ((mem_pairs n n _).2 ⟨hi, hj⟩)
      simpa [bad] using this
    · intro h
      rw [if_pos]
      rw [List.filter_eq_nil_iff]
      rintro ⟨i, j⟩ hp
      have := (mem_pairs n n _).1 hp
      simpa [bad] using h i j this.1 this.2
  · dsimp only
    split_ifs
    · exact Or.inl rfl
    · exact Or.inr rfl

/-- **C220.** It prints a line for exactly the pairs that differ by more than 1e-12, each once, row by
row; with (i, j) it also prints (j, i). -/
theorem C220_check_messages (A : Nat → ℝ) (n : Nat) :
    (∀ i j, (i, j) ∈ (checkSymmetric A n).msgs ↔
      i < n ∧ j < n ∧ 1 / 10 ^ 12 < |byRows A n i j - byRows A n j i|) ∧
    (∀ i j, (i, j) ∈ (checkSymmetric A n).msgs ↔ (j, i) ∈ (checkSymmetric A n).msgs) ∧
    (checkSymmetric A n).msgs.Sublist (pairs n n) := by
  have key : ∀ i j, (i, j) ∈ (checkSymmetric A n).msgs ↔
      i < n ∧ j < n ∧ 1 / 10 ^ 12 < |byRows A n i j - byRows A n j i| := by
    intro i j
    rw [checkSymmetric_eq]
    simp only [List.mem_filter, mem_pairs, bad, decide_eq_true_eq, gt_iff_lt, and_assoc]
  refine ⟨key, fun i j => ?_, ?_⟩
  · rw [key, key, abs_sub_comm (byRows A n j i)]
    tauto
  · rw [checkSymmetric_eq]
    exact List.filter_sublist

/-- **C220.** A symmetric matrix is never refused. -/
theorem C220_check_accepts (A : Nat → ℝ) (n : Nat) (h : Symmetric (byRows A n) n) :
    (checkSymmetric A n).ierr = 0 ∧ (checkSymmetric A n).msgs = [] := by
  constructor
  · rw [(C220_check A n).1]
    intro i j hi hj
    rw [h i j hi hj, sub_self, abs_zero]
    positivity
  · rw [List.eq_nil_iff_forall_not_mem]
    rintro ⟨i, j⟩ hm
    obtain ⟨hi, hj, hl⟩ := ((C220_check_messages A n).1 i j).1 hm
    rw [h i j hi hj, sub_self, abs_zero] at hl
    have : (0 : ℝ) < 1 / 10 ^ 12 := by positivity
    linarith

example : Symmetric (byRows (fun k => if k = 1 ∨ k = 2 then 7 else 1) 2) 2 := by
  intro i j hi hj
  interval_cases i <;> interval_cases j <;> simp [byRows]

/-- **C220.** Only the `n * n` entries of the array are looked at. -/
theorem C220_check_bounds (A B : Nat → ℝ) (n : Nat) (h : ∀ k, k < n * n → A k = B k) :
    checkSymmetric A n = checkSymmetric B n := by
  have hf : (pairs n n).filter (bad A n) = (pairs n n).filter (bad B n) := by
    apply List.filter_congr
    rintro ⟨i, j⟩ hp
    obtain ⟨hi, hj⟩ := (mem_pairs n n _).1 hp
    have e : ∀ a b, a < n → b < n → a * n + b < n * n := by
      intro a b ha hb
      nlinarith [Nat.mul_le_mul_right n (Nat.succ_le_of_lt ha)]
    have h1 := h _ (e i j hi hj)
    have h2 := h _ (e j i hj hi)
    have h1' : byRows A n i j = byRows B n i j := h1
    have h2' : byRows A n j i = byRows B n j i := h2
    simp only [bad, h1', h2']
  rw [checkSymmetric_eq, checkSymmetric_eq, hf]

/-- **C220.** The tolerance does not follow the size of the entries: a matrix of permeabilities (here all
entries of size 5e-13 at most) is accepted whatever it is. -/
theorem C220_check_small (A : Nat → ℝ) (n : Nat) (h : ∀ k, k < n * n → |A k| ≤ 5 / 10 ^ 13) :
    (checkSymmetric A n).ierr = 0 := by
  rw [(C220_check A n).1]
  intro i j hi hj
  have e : ∀ a b, a < n → b < n → a * n + b < n * n := by
    intro a b ha hb
    nlinarith [Nat.mul_le_mul_right n (Nat.succ_le_of_lt ha)]
  have h1 := h _ (e i j hi hj)
  have h2 := h _ (e j i hj hi)
  have h3 := abs_sub (byRows A n i j) (byRows A n j i)
  unfold byRows at *
  have : (5 : ℝ) / 10 ^ 13 + 5 / 10 ^ 13 = 1 / 10 ^ 12 := by norm_num
  linarith

/-- **C220, violated.** There is a matrix whose two off-diagonal entries have opposite signs, and which
`CheckSymmetric` calls symmetric. -/
theorem C220_check_violated :
    ∃ A : Nat → ℝ, (checkSymmetric A 2).ierr = 0 ∧ byRows A 2 0 1 = -byRows A 2 1 0 ∧
      ¬ Symmetric (byRows A 2) 2 := by
  refine ⟨fun k => if k = 1 then 1 / 10 ^ 13 else if k = 2 then -(1 / 10 ^ 13) else 0, ?_, ?_, ?_⟩
  · apply C220_check_small
    intro k _
    split_ifs <;> norm_num
  · simp [byRows]
  · intro h
    have := h 0 1 (by omega) (by omega)
    norm_num [byRows] at this

/-- **C220.** Multiplied by a large enough factor, every matrix that is not symmetric is refused. -/
theorem C220_check_scaled (A : Nat → ℝ) (n : Nat) (h : ¬ Symmetric (byRows A n) n) :
    ∃ c : ℝ, ∀ d, c < d → (checkSymmetric (fun k => d * A k) n).ierr = 64 := by
  unfold Symmetric at h
  push Not at h
  obtain ⟨i, j, hi, hj, hne⟩ := h
  have hpos : 0 < |byRows A n i j - byRows A n j i| := abs_pos.2 (sub_ne_zero.2 hne)
  refine ⟨(1 / 10 ^ 12) / |byRows A n i j - byRows A n j i|, fun d hd => ?_⟩
  rcases (C220_check (fun k => d * A k) n).2 with h0 | h0
  · exfalso
    have := ((C220_check (fun k => d * A k) n).1.1 h0) i j hi hj
    have e : byRows (fun k => d * A k) n i j - byRows (fun k => d * A k) n j i =
        d * (byRows A n i j - byRows A n j i) := by
      unfold byRows; ring
    rw [e, abs_mul] at this
    rw [div_lt_iff₀ hpos] at hd
    have h2 := mul_le_mul_of_nonneg_right (le_abs_self d) hpos.le
    linarith
  · exact h0

example : ¬ Symmetric (byRows (fun k => (k : ℝ)) 2) 2 := by
  intro h
  have := h 0 1 (by omega) (by omega)
  norm_num [byRows] at this

/-! ## PrintMatrix -/

/-- The entry that row `i` shows in column `j`. -/
def entryOf (A : Nat → ℝ) (nr nc : Nat) (rowMajor : Bool) (i j : Nat) : ℝ :=
  if rowMajor then A (i * nc + j) else A (j * nr + i)

/-- The pieces of one row. -/
noncomputable def rowPieces (A : Nat → ℝ) (nr nc : Nat) (rm : Bool) (i : Nat) : List Piece :=
  (if i > 0 then [.text " ["] else []) ++
    ((List.range nc).map fun j => fmt4 (entryOf A nr nc rm i j)) ++ [.text "]"] ++
    (if i + 1 < nr then [.text ",\n"] else [])

theorem printRow_eq (A : Nat → ℝ) (nr nc : Nat) (rm : Bool) (i : Nat) (out : List Piece) :
    printRow A nr nc rm i out = out ++ rowPieces A nr nc rm i := by
  have hbody : (fun j (out : List Piece) =>
      if rm then out ++ [fmt4 (A (i * nc + j))] else out ++ [fmt4 (A (j * nr + i))]) =
      fun j out => out ++ [fmt4 (entryOf A nr nc rm i j)] := by
    funext j out
    cases rm <;> simp [entryOf]
  simp only [printRow, hbody, forN_append, flatMap_single, rowPieces]
  split_ifs <;> simp

theorem printMatrix_eq (A : Nat → ℝ) (nr nc : Nat) (rm : Bool) :
    printMatrix A nr nc rm =
      [.text "[["] ++ (List.range nr).flatMap (rowPieces A nr nc rm) ++ [.text "]\n"] := by
  have hb : printRow A nr nc rm = fun i out => out ++ rowPieces A nr nc rm i := by
    funext i out; exact printRow_eq A nr nc rm i out
  rw [printMatrix, hb, forN_append]

theorem text_value (t : String) : [Piece.text t].filterMap Piece.value? = [] := rfl

theorem fmt4_value (x : ℝ) : (fmt4 x).value? = some (shown x) := by
  simp [fmt4, Piece.value?, shown]

theorem numbers_row (A : Nat → ℝ) (nr nc : Nat) (rm : Bool) (i : Nat) :
    numbers (rowPieces A nr nc rm i) = (List.range nc).map fun j => shown (entryOf A nr nc rm i j) := by
  have hm : ∀ l : List Nat, (l.map fun j => fmt4 (entryOf A nr nc rm i j)).filterMap Piece.value? =
      l.map fun j => shown (entryOf A nr nc rm i j) := by
    intro l
    induction l with
    | nil => rfl
    | cons a l ih => simp only [List.map_cons, List.filterMap_cons, fmt4_value, ih]
  simp only [numbers, rowPieces, List.filterMap_append, hm]
  split_ifs <;> simp [text_value]

/-- **C220.** The numbers of the text are, row by row, the entries of the matrix, each once: entry (i, j)
at `i * nc + j` of an array stored by rows and at `j * nr + i` of one stored by columns. -/
theorem C220_print_numbers (A : Nat → ℝ) (nr nc : Nat) :
    numbers (printMatrix A nr nc true) = (pairs nr nc).map (fun p => shown (A (p.1 * nc + p.2))) ∧
    numbers (printMatrix A nr nc false) = (pairs nr nc).map (fun p => shown (A (p.2 * nr + p.1))) := by
  have key : ∀ rm, numbers (printMatrix A nr nc rm) =
      (pairs nr nc).map fun p => shown (entryOf A nr nc rm p.1 p.2) := by
    intro rm
    have hl : ∀ l : List Nat, (l.flatMap (rowPieces A nr nc rm)).filterMap Piece.value? =
        (l.flatMap fun i => (List.range nc).map fun j => (i, j)).map
          fun p => shown (entryOf A nr nc rm p.1 p.2) := by
      intro l
      induction l with
      | nil => rfl
      | cons a l ih =>
        have := numbers_row A nr nc rm a
        simp only [numbers] at this
        simp only [List.flatMap_cons, List.filterMap_append, List.map_append, ih, this, List.map_map]
        rfl
    rw [printMatrix_eq, numbers, List.filterMap_append, List.filterMap_append, hl]
    simp [text_value, pairs]
  refine ⟨?_, ?_⟩
  · rw [key]; simp [entryOf]
  · rw [key]; simp [entryOf]

/-- **C220.** A number is shown with an error of half a ten-thousandth at most. -/
theorem C220_print_rounding (x : ℝ) : |shown x - x| ≤ 1 / 20000 := by
  have h := abs_sub_round (|x| * 10000)
  unfold shown
  split_ifs with hx
  · rw [abs_of_neg hx] at *
    rw [abs_le] at *
    constructor <;> [skip; skip] <;> (obtain ⟨h1, h2⟩ := h; linarith)
  · rw [abs_of_nonneg (not_lt.1 hx)] at *
    rw [abs_le] at *
    constructor <;> [skip; skip] <;> (obtain ⟨h1, h2⟩ := h; linarith)

/-- **C220, violated.** Every number below half a ten-thousandth is shown as zero: the text of a matrix
of permeabilities does not tell it from the zero matrix. -/
theorem C220_print_small (x : ℝ) (h : |x| < 1 / 20000) : shown x = 0 := by
  have : round (|x| * 10000) = 0 := by
    rw [round_eq_zero_iff]
    constructor
    · have := abs_nonneg x; linarith
    · linarith
  simp [shown, this]

example : |(1e-10 : ℝ)| < 1 / 20000 := by norm_num

theorem occurs_append (c : Char) (a b : List Piece) : occurs c (a ++ b) = occurs c a + occurs c b := by
  simp [occurs]

theorem occurs_row (c : Char) (A : Nat → ℝ) (nr nc : Nat) (rm : Bool) (i : Nat) :
    occurs c (rowPieces A nr nc rm i) =
      (if i > 0 then " [".toList.count c else 0) + "]".toList.count c +
        (if i + 1 < nr then ",\n".toList.count c else 0) := by
  have hm : ∀ l : List Nat, occurs c (l.map fun j => fmt4 (entryOf A nr nc rm i j)) = 0 := by
    intro l
    induction l with
    | nil => rfl
    | cons a l ih =>
      have : occurs c ([fmt4 (entryOf A nr nc rm i a)]) = 0 := by simp [occurs, fmt4]
      rw [List.map_cons, ← List.singleton_append, occurs_append, this, ih]
  rw [rowPieces, occurs_append, occurs_append, occurs_append, hm]
  split_ifs <;> simp [occurs]

theorem occurs_rows (c : Char) (A : Nat → ℝ) (nr nc : Nat) (rm : Bool) (m : Nat) :
    occurs c ((List.range m).flatMap (rowPieces A nr nc rm)) =
      ((List.range m).map fun i => (if i > 0 then " [".toList.count c else 0) + "]".toList.count c +
        (if i + 1 < nr then ",\n".toList.count c else 0)).sum := by
  induction m with
  | zero => rfl
  | succ m ih =>
    rw [List.range_succ, List.flatMap_append, occurs_append, ih, List.map_append, List.sum_append]
    simp [occurs_row]

/-- **C220.** A matrix with rows is written with one opening and one closing bracket for each row and one
pair around all, and with one line for each row. -/
theorem C220_print_brackets (A : Nat → ℝ) (nr nc : Nat) (rm : Bool) (h : 0 < nr) :
    occurs '[' (printMatrix A nr nc rm) = nr + 1 ∧ occurs ']' (printMatrix A nr nc rm) = nr + 1 ∧
    occurs '\n' (printMatrix A nr nc rm) = nr := by
  have ho : ∀ m, ((List.range m).map fun i => (if i > 0 then 1 else 0) + 0 +
      (if i + 1 < nr then 0 else 0)).sum = m - 1 := by
    intro m
    induction m with
    | zero => rfl
    | succ m ih =>
      rw [List.range_succ, List.map_append, List.sum_append, ih]
      rcases m with _ | m <;> simp
  have hc : ∀ m, ((List.range m).map fun i => (if i > 0 then 0 else 0) + 1 +
      (if i + 1 < nr then 0 else 0)).sum = m := by
    intro m
    induction m with
    | zero => rfl
    | succ m ih =>
      rw [List.range_succ, List.map_append, List.sum_append, ih]
      simp
  have hn : ∀ m, m ≤ nr → ((List.range m).map fun i => (if i > 0 then 0 else 0) + 0 +
      (if i + 1 < nr then 1 else 0)).sum = min m (nr - 1) := by
    intro m
    induction m with
    | zero => intro _; simp
    | succ m ih =>
      intro hm
      rw [List.range_succ, List.map_append, List.sum_append, ih (by omega)]
      simp only [List.map_cons, List.map_nil, List.sum_cons, List.sum_nil]
      split_ifs <;> omega
  have a1 : " [".toList.count '[' = 1 := by decide
  have a2 : "]".toList.count '[' = 0 := by decide
  have a3 : ",\n".toList.count '[' = 0 := by decide
  have b1 : " [".toList.count ']' = 0 := by decide
  have b2 : "]".toList.count ']' = 1 := by decide
  have b3 : ",\n".toList.count ']' = 0 := by decide
  have c1 : " [".toList.count '\n' = 0 := by decide
  have c2 : "]".toList.count '\n' = 0 := by decide
  have c3 : ",\n".toList.count '\n' = 1 := by decide
  have e : ∀ c, occurs c (printMatrix A nr nc rm) = "[[".toList.count c +
      occurs c ((List.range nr).flatMap (rowPieces A nr nc rm)) + "]\n".toList.count c := by
    intro c
    rw [printMatrix_eq, occurs_append, occurs_append]
    simp [occurs]
  refine ⟨?_, ?_, ?_⟩
  · rw [e, occurs_rows, a1, a2, a3, ho]
    have d1 : "[[".toList.count '[' = 2 := by decide
    have d2 : "]\n".toList.count '[' = 0 := by decide
    omega
  · rw [e, occurs_rows, b1, b2, b3, hc]
    have d1 : "[[".toList.count ']' = 0 := by decide
    have d2 : "]\n".toList.count ']' = 1 := by decide
    omega
  · rw [e, occurs_rows, c1, c2, c3, hn nr le_rfl]
    have d1 : "[[".toList.count '\n' = 0 := by decide
    have d2 : "]\n".toList.count '\n' = 1 := by decide
    omega

example (A : Nat → ℝ) : occurs '[' (printMatrix A 3 2 true) = 4 :=
  (C220_print_brackets A 3 2 true (by omega)).1

/-- **C220, violated.** A matrix without rows is written with two opening brackets and one closing
bracket. -/
theorem C220_print_empty_violated (A : Nat → ℝ) (nc : Nat) (rm : Bool) :
    occurs '[' (printMatrix A 0 nc rm) = 2 ∧ occurs ']' (printMatrix A 0 nc rm) = 1 := by
  constructor <;> simp [printMatrix, forN, occurs]

/-- **C220.** Only the `nr * nc` entries of the array are printed, with either storage. -/
theorem C220_print_bounds (A B : Nat → ℝ) (nr nc : Nat) (rm : Bool)
    (h : ∀ k, k < nr * nc → A k = B k) : printMatrix A nr nc rm = printMatrix B nr nc rm := by
  rw [printMatrix_eq, printMatrix_eq]
  congr 2
  apply List.flatMap_congr
  intro i hi
  rw [List.mem_range] at hi
  unfold rowPieces
  congr 3
  apply List.map_congr_left
  intro j hj
  rw [List.mem_range] at hj
  have e1 : i * nc + j < nr * nc := by
    nlinarith [Nat.mul_le_mul_right nc (Nat.succ_le_of_lt hi)]
  have e2 : j * nr + i < nr * nc := by
    nlinarith [Nat.mul_le_mul_right nr (Nat.succ_le_of_lt hj)]
  unfold entryOf
  rw [h _ e1, h _ e2]

/-- **C220.** Printing an array by rows is printing its transpose by columns. -/
theorem C220_print_transposed (A B : Nat → ℝ) (nr nc : Nat)
    (h : ∀ i j, i < nr → j < nc → A (i * nc + j) = B (j * nr + i)) :
    printMatrix A nr nc true = printMatrix B nr nc false := by
  rw [printMatrix_eq, printMatrix_eq]
  congr 2
  apply List.flatMap_congr
  intro i hi
  rw [List.mem_range] at hi
  unfold rowPieces
  congr 3
  apply List.map_congr_left
  intro j hj
  rw [List.mem_range] at hj
  simp [entryOf, h i j hi hj]

example : ∀ i j, i < 2 → j < 2 → (fun k => ((k : ℕ) : ℝ)) (i * 2 + j) =
    (fun k => if k = 1 then 2 else if k = 2 then 1 else ((k : ℕ) : ℝ)) (j * 2 + i) := by
  intro i j hi hj
  interval_cases i <;> interval_cases j <;> norm_num

end TDy.Debug
