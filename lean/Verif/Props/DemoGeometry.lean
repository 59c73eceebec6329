import Verif.Proofs.DemoGeometry
import Verif.Proofs.SteadyDemo

/-!
# Meshes and starting values of the demonstration programs
-/

namespace TDy.Demo.Props

open TDy TDy.Demo TDy.Demo.Spec TDy.Demo.Proofs

/-- No two of the first `nv` vertices are at the same place. -/
def Distinct (d nv : Nat) (coords : Nat → ℝ) : Prop :=
  ∀ v w, v < nv → w < nv → v ≠ w → pointAt d coords v ≠ pointAt d coords w

/-- C205.  The program `steady` moves the vertices of its mesh so that no two of them end at the
same place, and changes nothing but their coordinates.  Partial: for `-paper wheeler2006` in the
plane and for a mesh with no vertex to the left of 0, and for `-paper column` in space
(`C205_column_violated` shows that the last condition is needed). -/
theorem C205_distinct_partial (paper : Paper) (problem : Int) (d nv : Nat) (coords : Nat → ℝ)
    (hd : d = 2 ∨ d = 3) (hcol : paper = .column → d = 3)
    (h2006 : paper = .wheeler2006 → d = 2 ∧ ∀ v, v < nv → 0 ≤ coords (d * v))
    (hdis : Distinct d nv coords) :
    Distinct d nv (moveVertices paper problem d nv coords) ∧
      ∀ j, d * nv ≤ j → moveVertices paper problem d nv coords j = coords j := by
  cases paper with
  | wheeler2006 =>
    simp only [moveVertices, true_and, reduceCtorEq, if_false]
    obtain ⟨rfl, hx⟩ := h2006 rfl
    split
    · have hm := forN_map 2 nv (fun p c => if c = 1 then height2006 (p 0) (p 1) else p 0)
        (fun v coords => wr coords (2 * v + 1) (height2006 (coords (2 * v)) (coords (2 * v + 1))))
        (fun i a c hc => by interval_cases c <;> simp [wr, pointAt])
        (fun i a j hj => by simp only [wr]; rw [if_neg (by omega)]) coords
      refine ⟨fun v w hv hw hvw heq => hdis v w hv hw hvw ?_, hm.2⟩
      have e0 := congrFun heq 0
      have e1 := congrFun heq 1
      have v0 := hm.1 v hv 0 (by omega)
      have v1 := hm.1 v hv 1 (by omega)
      have w0 := hm.1 w hw 0 (by omega)
      have w1 := hm.1 w hw 1 (by omega)
      simp only [pointAt, geometryWheeler2006_2] at e0 e1
      simp only [Fin.val_zero, Fin.val_one] at e0 e1
      rw [v0, w0] at e0
      rw [v1, w1] at e1
      simp [pointAt] at e0 e1
      obtain ⟨g, hg, hh⟩ := height2006_pos (coords (2 * v)) (hx v hv)
      rw [← e0, hh, hh] at e1
      have e1 := mul_left_cancel₀ hg.ne' e1
      funext j
      fin_cases j
      · simpa [pointAt] using e0
      · simpa [pointAt] using e1
    · exact ⟨hdis, fun _ _ => rfl⟩
  | wheeler2012 =>
    simp only [moveVertices, reduceCtorEq, false_and, if_false, if_true]
    rcases hd with rfl | rfl
    · have hm := forN_map 2 nv
        (fun p c => if c = 0 then (smooth2 (p 0) (p 1)).1 else (smooth2 (p 0) (p 1)).2)
        (fun v coords =>
          let o := 2 * v
          if 2 = 2 then
            let p := smooth2 (coords o) (coords (o + 1))
            wr (wr coords o p.1) (o + 1) p.2
          else
            let p := smooth3 (coords o) (coords (o + 1)) (coords (o + 2))
            wr (wr (wr coords o p.1) (o + 1) p.2.1) (o + 2) p.2.2)
        (fun i a c hc => by interval_cases c <;> simp [wr, pointAt])
        (fun i a j hj => by
          simp only [wr, if_true]; rw [if_neg (by omega), if_neg (by omega)]) coords
      refine ⟨fun v w hv hw hvw heq => hdis v w hv hw hvw ?_, hm.2⟩
      have e0 := congrFun heq 0
      have e1 := congrFun heq 1
      have v0 := hm.1 v hv 0 (by omega)
      have v1 := hm.1 v hv 1 (by omega)
      have w0 := hm.1 w hw 0 (by omega)
      have w1 := hm.1 w hw 1 (by omega)
      have e0 := (v0.symm.trans e0).trans w0
      have e1 := (v1.symm.trans e1).trans w1
      simp only [if_true, one_ne_zero, if_false] at e0 e1
      obtain ⟨f0, f1⟩ := smooth2_inj _ _ _ _ (Prod.ext e0 e1)
      funext j
      fin_cases j
      · exact f0
      · exact f1
    · have hm := forN_map 3 nv
        (fun p c => if c = 0 then (smooth3 (p 0) (p 1) (p 2)).1
          else if c = 1 then (smooth3 (p 0) (p 1) (p 2)).2.1 else (smooth3 (p 0) (p 1) (p 2)).2.2)
        (fun v coords =>
          let o := 3 * v
          if 3 = 2 then
            let p := smooth2 (coords o) (coords (o + 1))
            wr (wr coords o p.1) (o + 1) p.2
          else
            let p := smooth3 (coords o) (coords (o + 1)) (coords (o + 2))
            wr (wr (wr coords o p.1) (o + 1) p.2.1) (o + 2) p.2.2)
        (fun i a c hc => by interval_cases c <;> simp [wr, pointAt])
        (fun i a j hj => by
          simp only [Nat.succ_ne_self, if_false]
          simp only [wr]
          rw [if_neg (by omega), if_neg (by omega), if_neg (by omega)]) coords
      refine ⟨fun v w hv hw hvw heq => hdis v w hv hw hvw ?_, hm.2⟩
      have e0 := congrFun heq 0
      have e1 := congrFun heq 1
      have e2 := congrFun heq 2
      have v0 := hm.1 v hv 0 (by omega)
      have v1 := hm.1 v hv 1 (by omega)
      have v2 := hm.1 v hv 2 (by omega)
      have w0 := hm.1 w hw 0 (by omega)
      have w1 := hm.1 w hw 1 (by omega)
      have w2 := hm.1 w hw 2 (by omega)
      have e0 := (v0.symm.trans e0).trans w0
      have e1 := (v1.symm.trans e1).trans w1
      have e2 := (v2.symm.trans e2).trans w2
      simp only [if_true, one_ne_zero, OfNat.ofNat_ne_zero, OfNat.ofNat_ne_one, if_false] at e0 e1 e2
      obtain ⟨f0, f1, f2⟩ := smooth3_inj _ _ _ _ _ _ (Prod.ext e0 (Prod.ext e1 e2))
      funext j
      fin_cases j
      · exact f0
      · exact f1
      · exact f2
  | column =>
    simp only [moveVertices, reduceCtorEq, false_and, if_false, if_true]
    obtain rfl := hcol rfl
    have hm := forN_map 3 nv
      (fun p c => if c = 0 then p 0 else if c = 1 then p 1 else p 2 + (0.05 * p 0 + 0.15 * p 1))
      (fun v coords =>
        let o := 3 * v
        wr coords (o + 2) (coords (o + 2) + (0.05 * coords o + 0.15 * coords (o + 1))))
      (fun i a c hc => by interval_cases c <;> simp [wr, pointAt])
      (fun i a j hj => by simp only [wr]; rw [if_neg (by omega)]) coords
    refine ⟨fun v w hv hw hvw heq => hdis v w hv hw hvw ?_, hm.2⟩
    have e0 := congrFun heq 0
    have e1 := congrFun heq 1
    have e2 := congrFun heq 2
    have v0 := hm.1 v hv 0 (by omega)
    have v1 := hm.1 v hv 1 (by omega)
    have v2 := hm.1 v hv 2 (by omega)
    have w0 := hm.1 w hw 0 (by omega)
    have w1 := hm.1 w hw 1 (by omega)
    have w2 := hm.1 w hw 2 (by omega)
    simp only [pointAt, geometryColumn] at e0 e1 e2
    simp only [Fin.val_zero, Fin.val_one, Fin.val_two] at e0 e1 e2
    rw [v0, w0] at e0
    rw [v1, w1] at e1
    rw [v2, w2] at e2
    simp [pointAt] at e0 e1 e2
    rw [e0, e1] at e2
    funext j
    fin_cases j
    · simpa [pointAt] using e0
    · simpa [pointAt] using e1
    · simpa [pointAt] using e2
  | other =>
    have h : moveVertices .other problem d nv coords = coords := by simp [moveVertices]
    rw [h]
    exact ⟨hdis, fun _ _ => rfl⟩

/-- Two vertices in space that are distinct, for the column. -/
example : Distinct 3 2 (fun j => if j < 3 then 0 else 1) := by
  intro v w hv hw hvw h
  have h0 := congrFun h 0
  simp only [pointAt, Fin.val_zero, Nat.add_zero] at h0
  interval_cases v <;> interval_cases w <;> simp at h0 hvw

/-- C205.  With `-paper wheeler2012` a vertex on a side of the unit square or cube stays on that
side: a coordinate that is 0 or 1 is not changed. -/
theorem C205_sides (problem : Int) (d nv : Nat) (coords : Nat → ℝ) (hd : d = 2 ∨ d = 3)
    (v c : Nat) (hv : v < nv) (hc : c < d) (hside : coords (d * v + c) = 0 ∨ coords (d * v + c) = 1) :
    moveVertices .wheeler2012 problem d nv coords (d * v + c) = coords (d * v + c) := by
  have z2 : ∀ t : ℝ, t = 0 ∨ t = 1 → Real.sin (2.0 * Real.pi * t) = 0 := by
    rintro t (rfl | rfl)
    · simp
    · rw [mul_one, show (2.0 : ℝ) = 2 by norm_num, Real.sin_two_pi]
  have z3 : ∀ t : ℝ, t = 0 ∨ t = 1 → Real.sin (3 * Real.pi * t) = 0 := by
    rintro t (rfl | rfl)
    · simp
    · rw [mul_one]; exact_mod_cast Real.sin_nat_mul_pi 3
  simp only [moveVertices, reduceCtorEq, false_and, if_false, if_true]
  rcases hd with rfl | rfl
  · have hm := forN_map 2 nv
      (fun p c => if c = 0 then (smooth2 (p 0) (p 1)).1 else (smooth2 (p 0) (p 1)).2)
      (fun v coords =>
        let o := 2 * v
        if 2 = 2 then
          let p := smooth2 (coords o) (coords (o + 1))
          wr (wr coords o p.1) (o + 1) p.2
        else
          let p := smooth3 (coords o) (coords (o + 1)) (coords (o + 2))
          wr (wr (wr coords o p.1) (o + 1) p.2.1) (o + 2) p.2.2)
      (fun i a c hc => by interval_cases c <;> simp [wr, pointAt])
      (fun i a j hj => by
        simp only [wr, if_true]; rw [if_neg (by omega), if_neg (by omega)]) coords
    have := hm.1 v hv c hc
    refine Eq.trans this ?_
    interval_cases c
    · simp only [Nat.add_zero] at hside
      simp [smooth2, pointAt, z2 _ hside]
    · simp [smooth2, pointAt, z2 _ hside]
  · have hm := forN_map 3 nv
      (fun p c => if c = 0 then (smooth3 (p 0) (p 1) (p 2)).1
        else if c = 1 then (smooth3 (p 0) (p 1) (p 2)).2.1 else (smooth3 (p 0) (p 1) (p 2)).2.2)
      (fun v coords =>
        let o := 3 * v
        if 3 = 2 then
          let p := smooth2 (coords o) (coords (o + 1))
          wr (wr coords o p.1) (o + 1) p.2
        else
          let p := smooth3 (coords o) (coords (o + 1)) (coords (o + 2))
          wr (wr (wr coords o p.1) (o + 1) p.2.1) (o + 2) p.2.2)
      (fun i a c hc => by interval_cases c <;> simp [wr, pointAt])
      (fun i a j hj => by
        simp only [Nat.succ_ne_self, if_false]
        simp only [wr]
        rw [if_neg (by omega), if_neg (by omega), if_neg (by omega)]) coords
    have := hm.1 v hv c hc
    refine Eq.trans this ?_
    interval_cases c
    · simp only [Nat.add_zero] at hside
      simp [smooth3, pointAt, z3 _ hside]
    · simp [smooth3, pointAt, z3 _ hside]
    · simp [smooth3, pointAt, z3 _ hside]

example : (fun _ => 1 : Nat → ℝ) (2 * 0 + 1) = 0 ∨ (fun _ => 1 : Nat → ℝ) (2 * 0 + 1) = 1 :=
  Or.inr rfl

/-- C205.  With `-paper wheeler2006` and problem 0 or 2 every vertex keeps its first coordinate,
the base stays where it is, and of two vertices above the same point of the base the higher one
stays the higher one. -/
theorem C205_heights (problem : Int) (hp : problem = 2 ∨ problem = 0) (nv : Nat) (coords : Nat → ℝ)
    (v : Nat) (hv : v < nv) (hx : 0 ≤ coords (2 * v)) :
    moveVertices .wheeler2006 problem 2 nv coords (2 * v) = coords (2 * v) ∧
    (coords (2 * v + 1) = 0 → moveVertices .wheeler2006 problem 2 nv coords (2 * v + 1) = 0) ∧
    ∀ w, w < nv → coords (2 * w) = coords (2 * v) → coords (2 * v + 1) < coords (2 * w + 1) →
      moveVertices .wheeler2006 problem 2 nv coords (2 * v + 1) <
        moveVertices .wheeler2006 problem 2 nv coords (2 * w + 1) := by
  have hm := forN_map 2 nv (fun p c => if c = 1 then height2006 (p 0) (p 1) else p 0)
    (fun v coords => wr coords (2 * v + 1) (height2006 (coords (2 * v)) (coords (2 * v + 1))))
    (fun i a c hc => by interval_cases c <;> simp [wr, pointAt])
    (fun i a j hj => by simp only [wr]; rw [if_neg (by omega)]) coords
  have hmv : moveVertices .wheeler2006 problem 2 nv coords = geometryWheeler2006_2 2 nv coords := by
    simp [moveVertices, hp]
  rw [hmv]
  obtain ⟨g, hg, hh⟩ := height2006_pos _ hx
  have v0 := hm.1 v hv 0 (by omega)
  have v1 := hm.1 v hv 1 (by omega)
  simp [pointAt] at v0 v1
  simp only [geometryWheeler2006_2]
  refine ⟨v0, fun h => ?_, fun w hw hxw hlt => ?_⟩
  · rw [v1, hh, h, mul_zero]
  · have w1 := hm.1 w hw 1 (by omega)
    simp [pointAt] at w1
    rw [v1, w1, hxw, hh, hh]
    exact mul_lt_mul_of_pos_left hlt hg

example : (0 : ℝ) ≤ (fun j => (j : ℝ) : Nat → ℝ) (2 * 1) := by norm_num

/-- C205 fails.  `-paper column` without `-dim 3` (the default is 2) adds to the entry behind each
vertex: the first coordinate of the next vertex, or for the last vertex memory that is not part of
the coordinates; two vertices can end at the same place.  And the mesh of `-paper column` is
the same block of `N` by `N` by `N` cells as for any other paper, although the program can make a
column. -/
theorem C205_column_violated :
    (∀ problem coords, moveVertices .column problem 2 1 coords 2 =
      coords 2 + (0.05 * coords 0 + 0.15 * coords 1)) ∧
    (∃ coords, Distinct 2 2 coords ∧ ∀ problem, ¬Distinct 2 2 (moveVertices .column problem 2 2 coords)) ∧
    (∀ N paper, meshOf .column N = meshOf paper N ∧ (meshOf .column N).cells = (N, N, N) ∧
      (createDM true N).cells = (1, 1, N)) := by
  refine ⟨fun problem coords => by simp [moveVertices, geometryColumn, forN],
    ⟨fun j => if j = 0 then 1 else if j = 2 then 0.95 else 0, ?_, fun problem h => ?_⟩,
    fun N paper => ⟨rfl, rfl, rfl⟩⟩
  · intro v w hv hw hvw h
    have h0 := congrFun h 0
    simp only [pointAt, Fin.val_zero, Nat.add_zero] at h0
    interval_cases v <;> interval_cases w <;> norm_num at h0 <;> exact hvw rfl
  · refine h 0 1 (by omega) (by omega) (by omega) ?_
    funext j
    fin_cases j
    · simp [pointAt, moveVertices, geometryColumn, forN, wr]; norm_num
    · simp [pointAt, moveVertices, geometryColumn, forN, wr]

/-- The vertices of a box of `N` by `N` by `N` cells around the origin: vertex `v` has the place
`(i, j, k)` in the grid. -/
structure BoxVertices (N nv : Nat) (coords : Nat → ℝ) (i j k : Nat → Nat) : Prop where
  inGrid : ∀ v, v < nv → i v ≤ N ∧ j v ≤ N ∧ k v ≤ N
  x : ∀ v, v < nv → coords (3 * v) = -0.5 + i v / N
  y : ∀ v, v < nv → coords (3 * v + 1) = -0.5 + j v / N
  z : ∀ v, v < nv → coords (3 * v + 2) = -0.5 + k v / N

open Classical in
/-- What one run over the vertices does to them. -/
theorem perturb_spec (nv : Nat) (h : ℝ) (rand : Nat → ℝ) (coords : Nat → ℝ)
    (hr : ∀ m, 0 ≤ rand m ∧ rand m ≤ 1) :
    (∀ v, v < nv →
      (perturbInteriorVertices nv h rand coords).1 (3 * v) = coords (3 * v) ∧
      (perturbInteriorVertices nv h rand coords).1 (3 * v + 1) = coords (3 * v + 1) ∧
      ((inside (coords (3 * v)) (coords (3 * v + 1)) (coords (3 * v + 2)) ∧
        ∃ r, 0 ≤ r ∧ r ≤ 1 ∧ (perturbInteriorVertices nv h rand coords).1 (3 * v + 2) =
          coords (3 * v + 2) + (r - 0.5) * h * 0.8) ∨
       (¬inside (coords (3 * v)) (coords (3 * v + 1)) (coords (3 * v + 2)) ∧
        (perturbInteriorVertices nv h rand coords).1 (3 * v + 2) = coords (3 * v + 2)))) ∧
    ∀ j, 3 * nv ≤ j → (perturbInteriorVertices nv h rand coords).1 j = coords j := by
  induction nv with
  | zero => exact ⟨fun v hv => absurd hv (by omega), fun _ _ => rfl⟩
  | succ n ih =>
    obtain ⟨h1, h2⟩ := ih
    set s := perturbInteriorVertices n h rand coords with hs
    have hstep : perturbInteriorVertices (n + 1) h rand coords =
        if inside (s.1 (3 * n)) (s.1 (3 * n + 1)) (s.1 (3 * n + 2)) then
          (wr s.1 (3 * n + 2) (perturbOne h (rand s.2) (s.1 (3 * n + 2))), s.2 + 1)
        else s := rfl
    rw [h2 _ (by omega), h2 _ (by omega), h2 _ (by omega)] at hstep
    by_cases hin : inside (coords (3 * n)) (coords (3 * n + 1)) (coords (3 * n + 2))
    · rw [if_pos hin] at hstep
      rw [hstep]
      refine ⟨fun v hv => ?_, fun j hj => ?_⟩
      · by_cases hvn : v = n
        · subst hvn
          refine ⟨?_, ?_, Or.inl ⟨hin, rand s.2, (hr _).1, (hr _).2, ?_⟩⟩
          · simp only [wr]; rw [if_neg (by omega), h2 _ (by omega)]
          · simp only [wr]; rw [if_neg (by omega), h2 _ (by omega)]
          · simp [wr, perturbOne]
        · have := h1 v (by omega)
          simp only [wr]
          rw [if_neg (by omega), if_neg (by omega), if_neg (by omega)]
          exact this
      · simp only [wr]; rw [if_neg (by omega), h2 _ (by omega)]
    · rw [if_neg hin] at hstep
      rw [hstep]
      refine ⟨fun v hv => ?_, fun j hj => h2 j (by omega)⟩
      by_cases hvn : v = n
      · subst hvn
        exact ⟨h2 _ (by omega), h2 _ (by omega), Or.inr ⟨hin, h2 _ (by omega)⟩⟩
      · exact h1 v (by omega)

/-- C206.  The program `transient` moves the inner vertices of its box at random.  Whatever numbers
`rand` gives: no vertex moves sideways, the vertices on the boundary do not move, every vertex
stays in the box, and in every column the vertices keep their order, so that no two of them meet. -/
theorem C206_random_mesh (N nv : Nat) (hN : 0 < N) (coords : Nat → ℝ) (i j k : Nat → Nat)
    (hb : BoxVertices N nv coords i j k) (rand : Nat → ℝ) (hr : ∀ m, 0 ≤ rand m ∧ rand m ≤ 1)
    (out : Nat → ℝ) (hout : out = (perturbInteriorVertices nv (1 / N) rand coords).1) :
    (∀ v, v < nv → out (3 * v) = coords (3 * v) ∧ out (3 * v + 1) = coords (3 * v + 1) ∧
      -0.5 ≤ out (3 * v + 2) ∧ out (3 * v + 2) ≤ 0.5 ∧
      (i v = 0 ∨ i v = N ∨ j v = 0 ∨ j v = N ∨ k v = 0 ∨ k v = N →
        out (3 * v + 2) = coords (3 * v + 2))) ∧
    (∀ v w, v < nv → w < nv → i v = i w → j v = j w → k v < k w →
      out (3 * v + 2) < out (3 * w + 2)) ∧
    ∀ l, 3 * nv ≤ l → out l = coords l := by
  subst hout
  obtain ⟨h1, h2⟩ := perturb_spec nv (1 / N) rand coords hr
  have hN0 : (0 : ℝ) < N := by exact_mod_cast hN
  have hinv : (0 : ℝ) < 1 / N := by positivity
  have hNN : (N : ℝ) * (1 / N) = 1 := by field_simp
  -- inside means strictly between the ends of the grid
  have hins : ∀ v, v < nv → inside (coords (3 * v)) (coords (3 * v + 1)) (coords (3 * v + 2)) →
      (0 < i v ∧ i v < N) ∧ (0 < j v ∧ j v < N) ∧ (0 < k v ∧ k v < N) := by
    intro v hv ⟨a1, a2, a3, a4, a5, a6⟩
    rw [hb.x v hv] at a1 a2
    rw [hb.y v hv] at a3 a4
    rw [hb.z v hv] at a5 a6
    have lo : ∀ n : Nat, (-0.5 : ℝ) + n / N > -0.5 → 0 < n := by
      intro n hn
      rcases Nat.eq_zero_or_pos n with h | h
      · rw [h] at hn; norm_num at hn
      · exact h
    have hi : ∀ n : Nat, (-0.5 : ℝ) + n / N < 0.5 → n < N := by
      intro n hn
      have : (n : ℝ) / N < 1 := by linarith
      rw [div_lt_one hN0] at this
      exact_mod_cast this
    exact ⟨⟨lo _ a1, hi _ a2⟩, ⟨lo _ a3, hi _ a4⟩, ⟨lo _ a5, hi _ a6⟩⟩
  -- how far a vertex can be from its place
  have hfar : ∀ v, v < nv →
      ∃ e : ℝ, (perturbInteriorVertices nv (1 / N) rand coords).1 (3 * v + 2) =
        -0.5 + (k v + e) * (1 / N) ∧ -0.4 ≤ e ∧ e ≤ 0.4 ∧
        (i v = 0 ∨ i v = N ∨ j v = 0 ∨ j v = N ∨ k v = 0 ∨ k v = N → e = 0) := by
    intro v hv
    obtain ⟨_, _, h3⟩ := h1 v hv
    rcases h3 with ⟨hin, r, r0, r1, hz⟩ | ⟨_, hz⟩
    · refine ⟨(r - 0.5) * 0.8, ?_, by linarith, by linarith, fun hbd => ?_⟩
      · rw [hz, hb.z v hv]; ring
      · have := hins v hv hin; omega
    · exact ⟨0, by rw [hz, hb.z v hv]; ring, by norm_num, by norm_num, fun _ => rfl⟩
  refine ⟨fun v hv => ?_, fun v w hv hw hi hj hk => ?_, h2⟩
  · obtain ⟨e, he, e1, e2, e3⟩ := hfar v hv
    have hbox : -0.5 ≤ (perturbInteriorVertices nv (1 / N) rand coords).1 (3 * v + 2) ∧
        (perturbInteriorVertices nv (1 / N) rand coords).1 (3 * v + 2) ≤ 0.5 := by
      rw [he]
      have hk0 : 0 ≤ (k v : ℝ) + e := by
        rcases Nat.eq_zero_or_pos (k v) with h | h
        · rw [e3 (by omega), h]; simp
        · have : (1 : ℝ) ≤ k v := by exact_mod_cast h
          linarith
      have hkN : (k v : ℝ) + e ≤ N := by
        rcases Nat.lt_or_ge (k v) N with h | h
        · have : (k v : ℝ) + 1 ≤ N := by exact_mod_cast h
          linarith
        · have hk := (hb.inGrid v hv).2.2
          have hkn : k v = N := by omega
          rw [e3 (by omega), hkn]; simp
      have m0 := mul_nonneg hk0 hinv.le
      have m1 := mul_le_mul_of_nonneg_right hkN hinv.le
      rw [hNN] at m1
      constructor <;> linarith
    refine ⟨(h1 v hv).1, (h1 v hv).2.1, hbox.1, hbox.2, fun hbd => ?_⟩
    rw [he, e3 hbd, hb.z v hv]; ring
  · obtain ⟨e, he, e1, e2, _⟩ := hfar v hv
    obtain ⟨f, hf, f1, f2, _⟩ := hfar w hw
    rw [he, hf]
    have : (k v : ℝ) + 1 ≤ k w := by exact_mod_cast hk
    have : (k v : ℝ) + e < k w + f := by linarith
    have := mul_lt_mul_of_pos_right this hinv
    linarith

/-- The column of three vertices above the origin in a box of 2 by 2 by 2 cells. -/
example : BoxVertices 2 3 (fun n => if n % 3 = 2 then -0.5 + ((n / 3 : Nat) : ℝ) / 2 else 0)
    (fun _ => 1) (fun _ => 1) (fun v => v) where
  inGrid := fun v hv => ⟨by omega, by omega, by omega⟩
  x := fun v _ => by
    rw [if_neg (by omega)]; norm_num
  y := fun v _ => by
    rw [if_neg (by omega)]; norm_num
  z := fun v _ => by
    rw [if_pos (by omega)]
    have : (3 * v + 2) / 3 = v := by omega
    rw [this]; norm_num

/-- C206.  The functions of the program `transient` give the same value at every point. -/
theorem C206_functions_partial (d : Nat) :
    Evaluates d 1 transientPorosity (fun _ _ => 0.5) ∧
    Evaluates d 1 transientPermeability (fun _ _ => 1e-10) ∧
    Evaluates d 1 transientPressure (fun _ _ => 91325) ∧
    AtOnePoint d 1 transientForcing (fun _ _ => 0) := by
  refine ⟨?_, ?_, ?_, ?_⟩
  · exact evaluates_of_loop d 1 _ _ _ (fun _ _ _ => rfl)
      (fun n x i a c hi hc => by interval_cases c; simp [wr])
      (fun n x i a j hj => by simp only [wr]; rw [if_neg (by omega)])
  · exact evaluates_of_loop d 1 _ _ _ (fun _ _ _ => rfl)
      (fun n x i a c hi hc => by interval_cases c; simp [wr])
      (fun n x i a j hj => by simp only [wr]; rw [if_neg (by omega)])
  · exact evaluates_of_loop d 1 _ _ _ (fun _ _ _ => rfl)
      (fun n x i a c hi hc => by interval_cases c; simp [wr])
      (fun n x i a j hj => by simp only [wr]; rw [if_neg (by omega)])
  · intro x out c hc
    interval_cases c
    simp [transientForcing, forN, wr]

/-- C206 fails.  The source of the program `transient`, asked about several points, leaves all
entries but the first as they were. -/
theorem C206_violated (n : Nat) (x out : Nat → ℝ) (j : Nat) (hj : j ≠ 0) :
    transientForcing n x out j = out j := by
  simp only [transientForcing]
  refine forN_invariant n _ out (fun _ a => a j = out j) rfl (fun i a _ h => ?_)
  simp only [wr]
  rw [if_neg hj]
  exact h

/-- C207.  The starting values of the program `salinity`: it writes memory it does not own exactly if
the process has fewer than five cells; otherwise the first five cells get the pressure 101325, the
first cell gets the salt mass fraction 1 and the next four 0.00001. -/
theorem C207_start_partial (len : Nat) (soln : Nat → ℝ) :
    (salinityStart len soln = .ub ↔ len < 10) ∧
    (10 ≤ len → ∃ out, salinityStart len soln = .ok out ∧
      (∀ c, c < 5 → out (2 * c) = 101325) ∧ out 1 = 1 ∧
      (∀ c, 1 ≤ c → c < 5 → out (2 * c + 1) = 0.00001) ∧
      ∀ j, 10 ≤ j → out j = soln j) := by
  have hok : 10 ≤ len → ∃ out, salinityStart len soln = .ok out ∧
      (∀ c, c < 5 → out (2 * c) = 101325) ∧ out 1 = 1 ∧
      (∀ c, 1 ≤ c → c < 5 → out (2 * c + 1) = 0.00001) ∧
      ∀ j, 10 ≤ j → out j = soln j := by
    intro hl
    have hp : ∀ (a : Nat → ℝ) (i : Nat) (v : ℝ), i < 10 →
        put len (.ok a) i v = .ok (wr a i v) := fun a i v hi => by
      simp only [put, Res.bind]; rw [if_pos (by omega)]
    have he : salinityStart len soln = .ok (wr (wr (wr (wr (wr (wr (wr (wr (wr (wr soln
        (2 * 0) 101325) (2 * 1) 101325) (2 * 2) 101325) (2 * 3) 101325) (2 * 4) 101325) 1 1)
        (2 * 0 + 3) 0.00001) (2 * 1 + 3) 0.00001) (2 * 2 + 3) 0.00001) (2 * 3 + 3) 0.00001) := by
      simp only [salinityStart, forN]
      rw [hp _ _ _ (by omega), hp _ _ _ (by omega), hp _ _ _ (by omega), hp _ _ _ (by omega),
        hp _ _ _ (by omega), hp _ _ _ (by omega)]
      rw [hp _ _ _ (by omega), hp _ _ _ (by omega), hp _ _ _ (by omega), hp _ _ _ (by omega)]
    refine ⟨_, he, ?_, ?_, ?_, ?_⟩
    · intro c hc; interval_cases c <;> simp [wr]
    · simp [wr]
    · intro c h1 hc; interval_cases c <;> simp [wr]
    · intro j hj
      simp only [wr]
      repeat rw [if_neg (by omega)]
  have hub : ∀ (i : Nat) (v : ℝ), put len .ub i v = .ub := fun i v => rfl
  refine ⟨⟨fun h => ?_, fun hl => ?_⟩, hok⟩
  · by_contra hc
    obtain ⟨out, ho, _⟩ := hok (by omega)
    rw [h] at ho; cases ho
  · -- the last write is at index 9
    have hlast : ∀ r : Res (Nat → ℝ), (∀ s, r ≠ .err s) → put len r 9 0.00001 = .ub := by
      intro r hr
      cases r with
      | ok a => simp only [put, Res.bind]; rw [if_neg (by omega)]
      | err s => exact absurd rfl (hr s)
      | ub => rfl
    have hput : ∀ (r : Res (Nat → ℝ)) (i : Nat) (v : ℝ), (∀ s, r ≠ .err s) →
        ∀ s, put len r i v ≠ .err s := by
      intro r i v hr s
      cases r with
      | ok a => simp only [put, Res.bind]; split <;> simp
      | err s => exact absurd rfl (hr s)
      | ub => simp [put, Res.bind]
    simp only [salinityStart, forN]
    apply hlast
    repeat' (apply hput)
    intro s; simp

/-- C207 fails.  Cells after the fifth are not set: a vector of zeros keeps pressure 0 there. -/
theorem C207_violated (ncells : Nat) (h : 5 < ncells) :
    ∃ out, salinityStart (2 * ncells) (fun _ => 0) = .ok out ∧
      ∀ c, 5 ≤ c → out (2 * c) = 0 ∧ out (2 * c + 1) = 0 := by
  obtain ⟨out, h1, _, _, _, h2⟩ := (C207_start_partial (2 * ncells) (fun _ => 0)).2 (by omega)
  exact ⟨out, h1, fun c hc => ⟨h2 _ (by omega), h2 _ (by omega)⟩⟩

end TDy.Demo.Props
