import Verif.Model.Regression
import Verif.Spec.Regression
import Verif.Props.Io
import Mathlib.Algebra.BigOperators.Fin
import Mathlib.Tactic.Linarith
import Mathlib.Tactic.FieldSimp

/-! # C150, C151: the regression file -/

namespace TDy.Regress.Props

open TDy TDy.Regress TDy.Regress.Spec

noncomputable section

theorem offset_mul (d : Nat) (cells : Nat → Nat) (r : Nat) :
    offset (fun r => d*cells r) r = d*offset cells r := by
  induction r with
  | zero => simp [offset]
  | succ r ih => simp only [offset, ih]; ring

theorem offset_mono (cells : Nat → Nat) {r s : Nat} (h : r ≤ s) : offset cells r ≤ offset cells s := by
  induction h with
  | refl => exact le_refl _
  | step _ ih => exact le_trans ih (Nat.le_add_right _ _)

theorem minSize_le (vec : Nat → Nat) (R : Nat) : ∀ r ≤ R, minSize vec R ≤ vec r := by
  induction R with
  | zero => intro r hr; rw [show r = 0 by omega]; exact le_refl _
  | succ R ih =>
    intro r hr
    rcases Nat.lt_or_ge R r with h | h
    · rw [show r = R + 1 by omega]; exact min_le_right _ _
    · exact le_trans (min_le_left _ _) (ih r h)

theorem minSize_ge (vec : Nat → Nat) (R k : Nat) (h : ∀ r ≤ R, k ≤ vec r) : k ≤ minSize vec R := by
  induction R with
  | zero => exact h 0 (le_refl _)
  | succ R ih => exact le_min (ih fun r hr => h r (by omega)) (h _ (le_refl _))

/-- Going through the ranks is going through the cells. -/
theorem flat_range {α : Type} (cells : Nat → Nat) (f : Nat → α) (n : Nat) :
    ((List.range n).flatMap fun r => (List.range (cells r)).map fun c => f (offset cells r + c)) =
      (List.range (offset cells n)).map f := by
  induction n with
  | zero => simp [offset]
  | succ n ih =>
    rw [List.range_succ, List.flatMap_append, ih]
    simp only [offset, List.range_add, List.map_append, List.map_map, List.flatMap_cons, List.flatMap_nil,
      List.append_nil]
    rfl

theorem foldl_max (l : List ℝ) (a : ℝ) : l.foldl max a ∈ a :: l ∧ ∀ x ∈ a :: l, x ≤ l.foldl max a := by
  induction l generalizing a with
  | nil => simp
  | cons b l ih =>
    obtain ⟨h1, h2⟩ := ih (max a b)
    rw [List.foldl_cons]
    constructor
    · rcases List.mem_cons.1 h1 with h | h
      · rcases max_choice a b with e | e
        · rw [h, e]; simp
        · rw [h, e]; simp
      · simp [h]
    · intro x hx
      have h0 := h2 (max a b) (by simp)
      rcases List.mem_cons.1 hx with rfl | hx
      · exact le_trans (le_max_left _ _) h0
      · rcases List.mem_cons.1 hx with rfl | hx
        · exact le_trans (le_max_right _ _) h0
        · exact h2 x (by simp [hx])

theorem foldl_min (l : List ℝ) (a : ℝ) : l.foldl min a ∈ a :: l ∧ ∀ x ∈ a :: l, l.foldl min a ≤ x := by
  induction l generalizing a with
  | nil => simp
  | cons b l ih =>
    obtain ⟨h1, h2⟩ := ih (min a b)
    rw [List.foldl_cons]
    constructor
    · rcases List.mem_cons.1 h1 with h | h
      · rcases min_choice a b with e | e
        · rw [h, e]; simp
        · rw [h, e]; simp
      · simp [h]
    · intro x hx
      have h0 := h2 (min a b) (by simp)
      rcases List.mem_cons.1 hx with rfl | hx
      · exact le_trans h0 (min_le_left _ _)
      · rcases List.mem_cons.1 hx with rfl | hx
        · exact le_trans h0 (min_le_right _ _)
        · exact h2 x (by simp [hx])

theorem sum_range (f : Nat → ℝ) (n : Nat) :
    ((List.range n).map f).sum = ∑ k ∈ Finset.range n, f k := by
  induction n with
  | zero => simp
  | succ n ih => rw [List.range_succ, List.map_append, List.sum_append, ih, Finset.sum_range_succ]; simp

theorem statistics (n : Nat) (f : Nat → ℝ) (hn : 0 < n) (lines : List (Nat × ℝ)) :
    Statistics n f (section' ((List.range n).map f) lines).max (section' ((List.range n).map f) lines).min
      (section' ((List.range n).map f) lines).mean := by
  obtain ⟨m, rfl⟩ : ∃ m, n = m + 1 := ⟨n - 1, by omega⟩
  have hmem : ∀ x, x ∈ (List.range (m + 1)).map f ↔ ∃ k < m + 1, f k = x := by
    intro x; simp
  refine ⟨?_, ?_, ?_⟩
  · have e : (List.range (m + 1)).map f = f 0 :: ((List.range m).map fun k => f (k + 1)) := by
      rw [List.range_succ_eq_map]; simp [Function.comp_def]
    obtain ⟨h1, h2⟩ := foldl_max ((List.range m).map fun k => f (k + 1)) (f 0)
    rw [← e] at h1 h2
    refine ⟨_, by simp only [section', e, vecMax], (hmem _).1 h1, fun k hk => h2 _ ((hmem _).2 ⟨k, hk, rfl⟩)⟩
  · have e : (List.range (m + 1)).map f = f 0 :: ((List.range m).map fun k => f (k + 1)) := by
      rw [List.range_succ_eq_map]; simp [Function.comp_def]
    obtain ⟨h1, h2⟩ := foldl_min ((List.range m).map fun k => f (k + 1)) (f 0)
    rw [← e] at h1 h2
    refine ⟨_, by simp only [section', e, vecMin], (hmem _).1 h1, fun k hk => h2 _ ((hmem _).2 ⟨k, hk, rfl⟩)⟩
  · simp only [section', Regress.mean, sum_range, List.length_map, List.length_range]
    field_simp

theorem mapM_some {α β : Type} (f : α → Option β) (h : α → β) (l : List α) (e : ∀ r ∈ l, f r = some (h r)) :
    l.mapM f = some (l.map h) := by
  induction l with
  | nil => rfl
  | cons a l ih =>
    rw [List.mapM_cons, e a (by simp), ih fun r hr => e r (by simp [hr])]
    rfl

/-- The sampled cells. -/
def sampledCells (cells inc : Nat → Nat) (num n : Nat) : List Nat :=
  (List.range n).flatMap fun r => (List.range num).map fun c => offset cells r + c*inc r

theorem sampledCells_succ (cells inc : Nat → Nat) (num n : Nat) :
    sampledCells cells inc num (n + 1) =
      sampledCells cells inc num n ++ (List.range num).map fun c => offset cells n + c*inc n := by
  simp [sampledCells, List.range_succ]

theorem sampledCells_ok (cells inc : Nat → Nat) (num n : Nat) (hi : ∀ r < n, 0 < inc r)
    (hfit : ∀ r < n, num*inc r ≤ cells r) :
    (sampledCells cells inc num n).Pairwise (· < ·) ∧
    (∀ k ∈ sampledCells cells inc num n, k < offset cells n) ∧
    (sampledCells cells inc num n).length = n*num ∧
    ∀ r < n, ((sampledCells cells inc num n).filter fun k =>
      decide (offset cells r ≤ k ∧ k < offset cells (r + 1))).length = num := by
  induction n with
  | zero => simp [sampledCells]
  | succ n ih =>
    obtain ⟨h1, h2, h3, h4⟩ := ih (fun r hr => hi r (by omega)) (fun r hr => hfit r (by omega))
    have hi' := hi n (by omega)
    have hf := hfit n (by omega)
    have hrange : ∀ c < num, c*inc n < cells n := by
      intro c hc
      have : (c + 1)*inc n ≤ num*inc n := Nat.mul_le_mul_right _ hc
      rw [Nat.add_mul] at this
      omega
    rw [sampledCells_succ]
    refine ⟨?_, ?_, ?_, ?_⟩
    · rw [List.pairwise_append]
      refine ⟨h1, ?_, ?_⟩
      · rw [List.pairwise_map]
        refine List.Pairwise.imp ?_ List.pairwise_lt_range
        intro a b hab
        have := Nat.mul_lt_mul_of_pos_right hab hi'
        omega
      · intro a ha b hb
        obtain ⟨c, -, rfl⟩ := List.mem_map.1 hb
        have := h2 a ha
        omega
    · intro k hk
      rcases List.mem_append.1 hk with h | h
      · have := h2 k h
        simp only [offset]; omega
      · obtain ⟨c, hc, rfl⟩ := List.mem_map.1 h
        have := hrange c (List.mem_range.1 hc)
        simp only [offset]; omega
    · rw [List.length_append, h3, List.length_map, List.length_range]; ring
    · intro r hr
      rw [List.filter_append, List.length_append]
      rcases Nat.lt_or_ge r n with h | h
      · rw [h4 r h]
        have : (((List.range num).map fun c => offset cells n + c*inc n).filter fun k =>
            decide (offset cells r ≤ k ∧ k < offset cells (r + 1))) = [] := by
          rw [List.filter_eq_nil_iff]
          intro k hk
          obtain ⟨c, hc, rfl⟩ := List.mem_map.1 hk
          have := offset_mono cells (show r + 1 ≤ n by omega)
          simp only [decide_eq_true_eq]
          omega
        rw [this]; rfl
      · obtain rfl : r = n := by omega
        have e1 : ((sampledCells cells inc num r).filter fun k =>
            decide (offset cells r ≤ k ∧ k < offset cells (r + 1))) = [] := by
          rw [List.filter_eq_nil_iff]
          intro k hk
          have := h2 k hk
          simp only [decide_eq_true_eq]
          omega
        have e2 : (((List.range num).map fun c => offset cells r + c*inc r).filter fun k =>
            decide (offset cells r ≤ k ∧ k < offset cells (r + 1))) =
            (List.range num).map fun c => offset cells r + c*inc r := by
          rw [List.filter_eq_self]
          intro k hk
          obtain ⟨c, hc, rfl⟩ := List.mem_map.1 hk
          have := hrange c (List.mem_range.1 hc)
          simp only [offset]
          refine decide_eq_true ⟨Nat.le_add_right _ _, Nat.add_lt_add_left this _⟩
        rw [e1, e2, List.length_map, List.length_range]; simp

theorem sampled (cells inc : Nat → Nat) (num R : Nat) (hi : ∀ r ≤ R, 0 < inc r)
    (hfit : ∀ r ≤ R, num*inc r ≤ cells r) :
    Sampled (sampledCells cells inc num (R + 1)) num R (offset cells) := by
  obtain ⟨h1, -, h3, h4⟩ := sampledCells_ok cells inc num (R + 1) (fun r hr => hi r (by omega))
    (fun r hr => hfit r (by omega))
  exact ⟨h1, fun r hr => h4 r (by omega), h3⟩

/-- The entries of a cell with two unknowns. -/
def pair (k : Nat) : List Nat := [2*k, 2*k + 1]

theorem pairs_range (f g : Nat → Nat) (n : Nat) (h : ∀ c < n, ∀ d < 2, f (2*c + d) = 2*g c + d) :
    (List.range (n*2)).map f = ((List.range n).map g).flatMap pair := by
  induction n with
  | zero => simp
  | succ n ih =>
    rw [show (n + 1)*2 = n*2 + 1 + 1 by ring, List.range_succ, List.range_succ, List.map_append,
      List.map_append, ih fun c hc => h c (by omega), List.range_succ (n := n)]
    have h0 := h n (by omega) 0 (by omega)
    have h1 := h n (by omega) 1 (by omega)
    simp only [Nat.add_zero] at h0
    rw [Nat.mul_comm 2 n] at h0 h1
    simp [List.flatMap_append, pair, h0, h1]

theorem pair_length (L : List Nat) : (L.flatMap pair).length = 2*L.length := by
  induction L with
  | nil => rfl
  | cons a L ih => rw [List.flatMap_cons, List.length_append, ih]; simp [pair]; ring

theorem pair_getD (L : List Nat) (i d : Nat) (hi : i < L.length) (hd : d < 2) :
    (L.flatMap pair).getD (2*i + d) 0 = 2*L.getD i 0 + d := by
  induction L generalizing i with
  | nil => simp at hi
  | cons a L ih =>
    cases i with
    | zero =>
      interval_cases d <;> simp [pair]
    | succ i =>
      have := ih i (by simpa using hi)
      rw [show 2*(i + 1) + d = (2*i + d) + 1 + 1 by ring, List.flatMap_cons]
      simpa [pair] using this

theorem map_getD {β : Type} (L : List Nat) (f : Nat → β) :
    ((List.range L.length).map fun i => f (L.getD i 0)) = L.map f := by
  apply List.ext_getElem
  · simp
  · intro i h1 h2
    simp at h1 h2 ⊢
    rw [List.getElem?_eq_getElem h1]
    rfl

theorem linesTH_pair (L : List Nat) (U : Nat → ℝ) (d : Nat) (hd : d < 2) :
    linesTH (L.flatMap pair) U d = L.map fun k => (k, U (2*k + d)) := by
  rw [linesTH, pair_length, Nat.mul_div_cancel_left _ (by decide),
    ← map_getD L fun k => (k, U (2*k + d))]
  apply List.map_congr_left
  intro i hi
  have hi' := List.mem_range.1 hi
  have h0 := pair_getD L i 0 hi' (by decide)
  simp only [Nat.add_zero] at h0
  rw [h0, pair_getD L i d hi' hd, Nat.mul_div_cancel_left _ (by decide)]

theorem linesOne_eq (L : List Nat) (U : Nat → ℝ) : linesOne L U = L.map fun k => (k, U k) := by
  rw [linesOne, ← map_getD L fun k => (k, U k)]

theorem ids_one (req R : Nat) (cells : Nat → Nat) (hreq : 0 < req) (hc : ∀ r ≤ R, 0 < cells r) :
    ∃ num inc, 0 < num ∧ num ≤ req ∧ (∀ r ≤ R, 0 < inc r) ∧ (∀ r ≤ R, num*inc r ≤ cells r) ∧
      (req ≤ minSize cells R → num = req) ∧
      sampleIds false req R cells = some (sampledCells cells inc num (R + 1)) := by
  have hm := minSize_ge cells R 1 hc
  set num := if minSize cells R < req then minSize cells R else req with hnum
  have h0 : 0 < num := by rw [hnum]; split <;> omega
  have h1 : num ≤ req := by rw [hnum]; split <;> omega
  have h2 : num ≤ minSize cells R := by rw [hnum]; split <;> omega
  have h3 : ∀ r ≤ R, num ≤ cells r := fun r hr => le_trans h2 (minSize_le cells R r hr)
  refine ⟨num, fun r => cells r/num, h0, h1, fun r hr => Nat.div_pos (h3 r hr) h0,
    fun r _ => Nat.mul_div_le _ _, fun h => by rw [hnum, if_neg (by omega)], ?_⟩
  unfold sampleIds
  rw [mapM_some _ (fun r => (List.range num).map fun c => offset cells r + c*(cells r/num))]
  · simp [sampledCells, List.flatMap]
  · intro r hr
    simp only [Io.regression, Bool.false_eq_true, if_false, ← hnum, if_neg h0.ne', Option.map_some,
      Option.some.injEq, Nat.mul_one]
    apply List.map_congr_left
    intro c hc'
    have := Io.Props.sample_pos num 1 (cells r/num) (offset cells r) c 0 (List.mem_range.1 hc') (by decide)
    simp only [Nat.one_mul, Nat.add_zero] at this ⊢
    rw [this]; ring

theorem ids_two (req R : Nat) (cells : Nat → Nat) (hreq : 0 < req) (hc : ∀ r ≤ R, req ≤ cells r) :
    ∃ inc, (∀ r ≤ R, 0 < inc r) ∧ (∀ r ≤ R, req*inc r ≤ cells r) ∧
      sampleIds true req R (fun r => 2*cells r) =
        some ((sampledCells cells inc req (R + 1)).flatMap pair) := by
  have hm := minSize_ge (fun r => 2*cells r) R req (fun r hr => by have := hc r hr; omega)
  refine ⟨fun r => cells r/req, fun r hr => Nat.div_pos (hc r hr) hreq, fun r _ => Nat.mul_div_le _ _, ?_⟩
  unfold sampleIds
  rw [mapM_some _ (fun r => ((List.range req).map fun c => offset cells r + c*(cells r/req)).flatMap pair)]
  · simp [sampledCells, List.flatMap, List.map_flatten]
    rw [List.flatten_flatten]
    simp [Function.comp_def]
  · intro r hr
    have e : 2*cells r/req/2 = cells r/req := by
      rw [Nat.div_div_eq_div_mul, Nat.mul_comm req 2, Nat.mul_div_mul_left _ _ (by decide)]
    simp only [Io.regression, if_true, if_neg (show ¬ minSize (fun r => 2*cells r) R < req by omega),
      if_neg hreq.ne', Option.map_some, Option.some.injEq, e]
    apply pairs_range
    intro c hc' d hd
    rw [Io.Props.sample_pos req 2 (cells r/req) _ c d hc' hd, offset_mul]
    ring

/-- C150, modes with one unknown per cell: the statistics are those of the pressures of all cells of
all ranks. -/
theorem C150_richards (two : Bool) (req R : Nat) (cells : Nat → Nat) (U : Nat → ℝ) (hreq : 0 < req)
    (hc : ∀ r ≤ R, 0 < cells r) :
    ∃ s, output false two req R cells U = some (s, none) ∧
      Statistics (offset cells (R + 1)) U s.max s.min s.mean := by
  obtain ⟨num, inc, -, -, -, -, -, e⟩ := ids_one req R cells hreq hc
  unfold output
  rw [e]
  simp only [Option.map_some, Bool.false_eq_true, if_false]
  refine ⟨_, rfl, ?_⟩
  have : (List.range (R + 1)).flatMap (presLocal false two cells U) =
      (List.range (offset cells (R + 1))).map U := by
    rw [← flat_range]
    congr 1
  rw [this]
  apply statistics
  have := hc R (le_refl _)
  simp only [offset]; omega

/-- C150, TH mode: the statistics are those of the pressures and of the temperatures. -/
theorem C150_th (req R : Nat) (cells : Nat → Nat) (U : Nat → ℝ) (hreq : 0 < req)
    (hc : ∀ r ≤ R, req ≤ cells r) :
    ∃ s t, output true true req R (fun r => 2*cells r) U = some (s, some t) ∧
      Statistics (offset cells (R + 1)) (fun k => U (2*k)) s.max s.min s.mean ∧
      Statistics (offset cells (R + 1)) (fun k => U (2*k + 1)) t.max t.min t.mean := by
  obtain ⟨inc, -, -, e⟩ := ids_two req R cells hreq hc
  have hpos : 0 < offset cells (R + 1) := by
    have := hc R (le_refl _)
    simp only [offset]; omega
  have h1 : (List.range (R + 1)).flatMap (presLocal true true (fun r => 2*cells r) U) =
      (List.range (offset cells (R + 1))).map fun k => U (2*k) := by
    rw [← flat_range]
    congr 1
    funext r
    simp only [presLocal, if_true, Bool.and_self, offset_mul, Nat.mul_div_cancel_left _ (show 0 < 2 by decide)]
    apply List.map_congr_left
    intro c _
    congr 1; ring
  have h2 : (List.range (R + 1)).flatMap (tempLocal true (fun r => 2*cells r) U) =
      (List.range (offset cells (R + 1))).map fun k => U (2*k + 1) := by
    rw [← flat_range]
    congr 1
    funext r
    simp only [tempLocal, if_true, offset_mul, Nat.mul_div_cancel_left _ (show 0 < 2 by decide)]
    apply List.map_congr_left
    intro c _
    congr 1; ring
  unfold output
  rw [e]
  simp only [Option.map_some, if_true]
  refine ⟨_, _, rfl, ?_, ?_⟩
  · rw [h1]; exact statistics _ _ hpos _
  · rw [h2]; exact statistics _ _ hpos _

/-- C151, modes with one unknown per cell: the lines are those of the same number of different cells of
each rank, each with its pressure; as many as requested, if every rank has them. -/
theorem C151_richards (two : Bool) (req R : Nat) (cells : Nat → Nat) (U : Nat → ℝ) (hreq : 0 < req)
    (hc : ∀ r ≤ R, 0 < cells r) :
    ∃ s L num, output false two req R cells U = some (s, none) ∧ 0 < num ∧ num ≤ req ∧
      ((∀ r ≤ R, req ≤ cells r) → num = req) ∧
      Sampled L num R (offset cells) ∧ s.lines = L.map fun k => (k, U k) := by
  obtain ⟨num, inc, h0, h1, h2, h3, h4, e⟩ := ids_one req R cells hreq hc
  unfold output
  rw [e]
  simp only [Option.map_some, Bool.false_eq_true, if_false]
  exact ⟨_, _, num, rfl, h0, h1, fun h => h4 (minSize_ge _ _ _ h), sampled cells inc num R h2 h3,
    linesOne_eq _ _⟩

/-- C151, TH mode: likewise, for requests that every rank can meet (C73). -/
theorem C151_th_partial (req R : Nat) (cells : Nat → Nat) (U : Nat → ℝ) (hreq : 0 < req)
    (hc : ∀ r ≤ R, req ≤ cells r) :
    ∃ s t L, output true true req R (fun r => 2*cells r) U = some (s, some t) ∧
      Sampled L req R (offset cells) ∧ s.lines = (L.map fun k => (k, U (2*k))) ∧
      t.lines = L.map fun k => (k, U (2*k + 1)) := by
  obtain ⟨inc, h2, h3, e⟩ := ids_two req R cells hreq hc
  unfold output
  rw [e]
  simp only [Option.map_some, if_true]
  exact ⟨_, _, _, rfl, sampled cells inc req R h2 h3, linesTH_pair _ _ 0 (by decide),
    linesTH_pair _ _ 1 (by decide)⟩

/-- Non-vacuity: two ranks with three and four cells, two cells requested of each. -/
example : ∀ r ≤ 1, 2 ≤ (fun r : Nat => 3 + r) r := by intro r _; simp only; omega

/-- In the salinity mode there are two unknowns per cell and the file is written as for one: with one
cell the concentration is listed as the pressure of a cell 1 that does not exist, and is the smallest
pressure if it is smaller. -/
theorem C151_salinity_violated (U : Nat → ℝ) (h : U 1 < U 0) :
    ∃ s, output false true 2 0 (fun _ => 2) U = some (s, none) ∧ s.lines = [(0, U 0), (1, U 1)] ∧
      ¬ Statistics 1 (fun k => U (2*k)) s.max s.min s.mean := by
  obtain ⟨num, inc, h0, h1, h2, h3, h4, e⟩ := ids_one 2 0 (fun _ => 2) (by decide) (by simp)
  have hn : num = 2 := h4 (by simp [minSize])
  subst hn
  have hi : inc 0 = 1 := by
    have := h2 0 (le_refl _)
    have := h3 0 (le_refl _)
    omega
  have hs : sampledCells (fun _ => 2) inc 2 (0 + 1) = [0, 1] := by
    simp [sampledCells, offset, List.range_succ, hi]
  unfold output
  rw [e, hs]
  simp only [Option.map_some, Bool.false_eq_true, if_false]
  refine ⟨_, rfl, by rw [section', linesOne_eq]; rfl, ?_⟩
  intro hst
  obtain ⟨m, hm, ⟨k, hk, hf⟩, -⟩ := hst.lo
  obtain rfl : k = 0 := by omega
  have hm' : some (min (U 0) (U 1)) = some m := by
    rw [← hm]
    simp [section', vecMin, presLocal, offset, List.range_succ]
  rw [min_eq_right h.le, Option.some.injEq] at hm'
  simp only [Nat.mul_zero] at hf
  rw [hf, ← hm'] at h
  exact lt_irrefl _ h

end

end TDy.Regress.Props
