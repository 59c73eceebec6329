import Verif.Spec.FortranDemo
import Mathlib.Order.Interval.Set.Defs
import Mathlib.Tactic.NormNum
import Mathlib.Tactic.Linarith

/-!
# C217: the functions of the Fortran demo programs give every point its value
-/

namespace TDy.Fortran.Props

open TDy TDy.Fortran TDy.Fortran.Spec

/-- `is_coordinate_top` recognises the points of the top. -/
theorem C217_top_iff (x1 x2 x3 : ℝ) : isCoordinateTop x1 x2 x3 = true ↔ OnTop x1 x2 x3 := by
  unfold isCoordinateTop OnTop
  simp only [forN, zzTop, Set.mem_insert_iff, Set.mem_singleton_iff]
  by_cases h1 : x1 = 1 <;> by_cases h6 : x1 = 6 <;> by_cases h2 : x2 = 1 <;> by_cases h3 : x2 = 2 <;>
    simp [h1, h6, h2, h3]
  tauto

example : OnTop 3 0 7.625 := by unfold OnTop; norm_num

/-- What the loop gives with enough coordinates. -/
theorem assignInLoop_ok (g : ℝ → ℝ → ℝ → ℝ) (x f : View) (n : Nat) (hx : 3*n ≤ x.extent) :
    assignInLoop g x n f = .ok ⟨f.extent, fun i => if 0 < n ∧ i < f.extent then
      g (x.val (3*(n-1))) (x.val (3*(n-1) + 1)) (x.val (3*(n-1) + 2)) else f.val i⟩ := by
  induction n with
  | zero => simp [assignInLoop]
  | succ n ih =>
    have h0 : 3*n < x.extent := by omega
    have h1 : 3*n + 1 < x.extent := by omega
    have h2 : 3*n + 2 < x.extent := by omega
    simp only [assignInLoop, ih (by omega), View.get, h0, h1, h2, if_true, View.fill,
      Nat.add_sub_cancel, Nat.succ_pos, true_and]
    congr 2
    funext i
    by_cases hi : i < f.extent <;> simp [hi]

theorem assignInLoop_short (g : ℝ → ℝ → ℝ → ℝ) (x f : View) (n : Nat) (hn : 0 < n)
    (hx : x.extent < 3*n) : assignInLoop g x n f = .ub := by
  obtain ⟨k, rfl⟩ : ∃ k, n = k + 1 := ⟨n - 1, by omega⟩
  clear hn
  induction k with
  | zero =>
    have : ¬ 2 < x.extent := by omega
    simp only [assignInLoop, View.get, Nat.mul_zero, Nat.zero_add, this, if_false]
    split <;> simp_all
  | succ k ih =>
    by_cases h : x.extent < 3*(k + 1)
    · rw [assignInLoop, ih h]
    · have h2 : ¬ 3*(k+1) + 2 < x.extent := by omega
      rw [assignInLoop, assignInLoop_ok g x f (k+1) (by omega)]
      simp only [View.get, h2, if_false]
      split <;> simp_all

theorem demo_loop {U : UserFn} {m : ℝ → ℝ → ℝ → ℝ} (h : DemoFn U m) :
    ∃ e : View → View, (∀ f, (e f).extent = f.extent ∧ ∀ i, f.extent ≤ i → (e f).val i = f.val i) ∧
      U = fun n x f => assignInLoop m x n (e f) := by
  cases h with
  | tpf =>
    refine ⟨id, fun f => ⟨rfl, fun _ _ => rfl⟩, ?_⟩
    funext n x f
    unfold tpfPressure tpfMeant
    congr 1
    funext x1 x2 x3
    by_cases h : OnTop x1 x2 x3
    · rw [if_pos h, if_pos ((C217_top_iff x1 x2 x3).2 h)]
    · rw [if_neg h, if_neg fun h' => h ((C217_top_iff x1 x2 x3).1 h')]
  | tpfType =>
    refine ⟨fun f => f.fill 1, fun f => ⟨rfl, fun i hi => if_neg (Nat.not_lt.2 hi)⟩, ?_⟩
    funext n x f
    unfold tpfPressureType tpfTypeMeant
    congr 1
    funext x1 x2 x3
    by_cases h : OnTop x1 x2 x3
    · rw [if_pos h, if_pos ((C217_top_iff x1 x2 x3).2 h)]
    · rw [if_neg h, if_neg fun h' => h ((C217_top_iff x1 x2 x3).1 h')]
  | snes =>
    refine ⟨id, fun f => ⟨rfl, fun _ _ => rfl⟩, ?_⟩
    funext n x f
    unfold snesPressure snesMeant
    simp only [Set.mem_Ioo, and_assoc, id]

/-- Called with whole arrays for any number of points, every point gets what the last point should have. -/
theorem C217_last_point {U : UserFn} {m : ℝ → ℝ → ℝ → ℝ} (h : DemoFn U m) (n : Nat) (hn : 0 < n)
    (x f : Nat → ℝ) : ∃ v, callWhole U n x f = .ok v ∧
      (∀ i < n, v i = m (x (3*(n-1))) (x (3*(n-1) + 1)) (x (3*(n-1) + 2))) ∧ ∀ i, n ≤ i → v i = f i := by
  obtain ⟨e, he, rfl⟩ := demo_loop h
  have hb := assignInLoop_ok m ⟨3*n, x⟩ (e ⟨n, f⟩) n (Nat.le_refl _)
  refine ⟨_, by unfold callWhole; dsimp only; rw [hb], fun i hi => ?_, fun i hi => ?_⟩
  · simp only [(he ⟨n, f⟩).1, hn, hi, and_self, if_true]
  · simp only [(he ⟨n, f⟩).1, Nat.not_lt.2 hi, and_false, if_false]
    exact (he ⟨n, f⟩).2 i hi

example : DemoFn snesPressure snesMeant ∧ (0:Nat) < 2 := ⟨.snes, by decide⟩

/-- **C217, partial.**  With whole arrays a single point gets its value.  Missing: several points, for which
only the last one counts, and the arrays the library really hands over. -/
theorem C217_one_point_partial {U : UserFn} {m : ℝ → ℝ → ℝ → ℝ} (h : DemoFn U m) (x f : Nat → ℝ) :
    ∃ v, callWhole U 1 x f = .ok v ∧ GivesEach m 1 x f v := by
  obtain ⟨v, hv, h1, h2⟩ := C217_last_point h 1 Nat.one_pos x f
  refine ⟨v, hv, fun i hi => ?_, h2⟩
  obtain rfl : i = 0 := by omega
  simpa using h1 0 hi

/-- Several points get their values exactly if they all should have the same. -/
theorem C217_several_iff {U : UserFn} {m : ℝ → ℝ → ℝ → ℝ} (h : DemoFn U m) (n : Nat) (hn : 0 < n)
    (x f : Nat → ℝ) : (∃ v, callWhole U n x f = .ok v ∧ GivesEach m n x f v) ↔
      ∀ i < n, m (x (3*i)) (x (3*i + 1)) (x (3*i + 2)) =
        m (x (3*(n-1))) (x (3*(n-1) + 1)) (x (3*(n-1) + 2)) := by
  obtain ⟨v, hv, h1, h2⟩ := C217_last_point h n hn x f
  constructor
  · rintro ⟨v', hv', h3, -⟩ i hi
    obtain rfl : v = v' := Res.ok.inj (hv.symm.trans hv')
    rw [← h3 i hi, h1 i hi]
  · intro hs
    exact ⟨v, hv, fun i hi => (h1 i hi).trans (hs i hi).symm, h2⟩

/-- Two points with the same value meet the condition, with values that are not those of memory. -/
example : ∃ v, callWhole tpfPressure 2 (fun _ => 7.5) (fun _ => 0) = .ok v ∧
    GivesEach tpfMeant 2 (fun _ => 7.5) (fun _ => 0) v ∧ v 0 = 111325 := by
  obtain ⟨v, hv, h⟩ := (C217_several_iff .tpf 2 (by decide) (fun _ => 7.5) (fun _ => 0)).2 fun _ _ => rfl
  refine ⟨v, hv, h, ?_⟩
  rw [h.1 0 (by decide)]
  have : OnTop 7.5 7.5 7.5 := by unfold OnTop; norm_num
  exact if_pos this

/-- Two points: inside the top of the unit cube, and at its bottom. -/
noncomputable def topThenBottom : Nat → ℝ
  | 0 => 0.5 | 1 => 0.5 | 2 => 1 | 3 => 0.5 | 4 => 0.5 | _ => 0

/-- **C217 fails**: the point on the top of the cube gets the pressure of the one at the bottom that comes
after it. -/
theorem C217_violated : ¬ ∀ (U : UserFn) (m : ℝ → ℝ → ℝ → ℝ), DemoFn U m → ∀ (n : Nat) (x f : Nat → ℝ), 0 < n →
    ∃ v, callWhole U n x f = .ok v ∧ GivesEach m n x f v := by
  intro h
  have := (C217_several_iff .snes 2 (by decide) topThenBottom (fun _ => 0)).1
    (h _ _ .snes 2 topThenBottom (fun _ => 0) (by decide)) 0 (by decide)
  norm_num [snesMeant, topThenBottom] at this

/-- Called the way the library calls, with as many coordinates as points, the functions read beyond their
coordinates, whatever the number of points. -/
theorem C217_called_undefined {U : UserFn} {m : ℝ → ℝ → ℝ → ℝ} (h : DemoFn U m) (n : Nat) (hn : 0 < n)
    (x f : Nat → ℝ) : callFunction U n x f = .ub := by
  obtain ⟨e, -, rfl⟩ := demo_loop h
  unfold callFunction
  dsimp only
  rw [assignInLoop_short m ⟨n, x⟩ (e ⟨n, f⟩) n hn (by show n < 3*n; omega)]

/-- The function of transient_mpfaof90, which does not look at its points, gives 100000 at all of them. -/
theorem C217_constant (n : Nat) (x f : Nat → ℝ) :
    ∃ v, callFunction steadyPressure n x f = .ok v ∧ GivesEach (fun _ _ _ => 100000) n x f v :=
  ⟨_, rfl, fun _ hi => if_pos hi, fun _ hi => if_neg (Nat.not_lt.2 hi)⟩

/-- The functions for permeabilities are defined for nine points only, and then set one tensor only: the
first. -/
theorem C217_tensor_iff (K0 : Nat → ℝ) (n : Nat) (x f v : Nat → ℝ) :
    callFunction (assignTensor K0) n x f = .ok v ↔ n = 9 ∧ v = fun k => if k < 9 then K0 k else f k := by
  unfold callFunction assignTensor
  by_cases h : n = 9
  · simp only [h, if_true, true_and, Res.ok.injEq]
    exact eq_comm
  · simp [h]

/-- **C217 fails** for permeabilities with any number of cells: there is always a cell without the tensor,
unless memory already had it. -/
theorem C217_tensor_violated (n : Nat) (hn : 0 < n) (x : Nat → ℝ) : ¬ ∃ v,
    callFunction (assignTensor tpfK0) n x (fun _ => 0) = .ok v ∧ ∀ i < n, ∀ k < 9, v (9*i + k) = tpfK0 k := by
  rintro ⟨v, hv, h⟩
  obtain ⟨rfl, rfl⟩ := (C217_tensor_iff _ _ _ _ _).1 hv
  have := h 1 (by decide) 0 (by decide)
  norm_num [tpfK0] at this

/-- The tensors the programs set are diagonal with positive entries, so that each could be a permeability. -/
theorem C217_tensors : ∀ K0, (K0 = tpfK0 ∨ K0 = pflotranK0 ∨ K0 = snesK0) →
    ∀ i < 3, ∀ j < 3, if i = j then 0 < K0 (3*i + j) else K0 (3*i + j) = 0 := by
  rintro K0 (rfl | rfl | rfl) i hi j hj
  all_goals
    obtain rfl | rfl | rfl : i = 0 ∨ i = 1 ∨ i = 2 := by omega
  all_goals
    obtain rfl | rfl | rfl : j = 0 ∨ j = 1 ∨ j = 2 := by omega
  all_goals norm_num [tpfK0, pflotranK0, snesK0]

end TDy.Fortran.Props
