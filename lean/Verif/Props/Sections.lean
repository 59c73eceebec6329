import Mathlib.Tactic.Ring
import Mathlib.Tactic.Linarith
import Mathlib.Algebra.BigOperators.Group.Finset.Basic
import Mathlib.Algebra.BigOperators.Intervals
import Mathlib.Algebra.Order.BigOperators.Group.Finset
import Verif.Spec.Sections
import Verif.Props.FeMaps

/-!
# C184: where the unknowns are
-/

namespace TDy.Sections.Props

open TDy.Sections TDy.Sections.Spec Finset

/-- A loop that adds is a sum. -/
theorem loop_sum (n : Nat) (g : Nat → Nat) (a : Nat) : forN n (fun i a => a + g i) a = a + ∑ i ∈ range n, g i := by
  induction n with
  | zero => rw [forN, range_zero, sum_empty, add_zero]
  | succ n ih => rw [forN, ih, sum_range_succ, add_assoc]

theorem offset_sum (s : Section) (p : Nat) : s.offset p = ∑ i ∈ range (p - s.pStart), s.dof (s.pStart + i) := by
  unfold Section.offset
  rw [loop_sum, zero_add]

theorem fieldOffset_sum (s : Section) (p f : Nat) : s.fieldOffset p f = s.offset p + ∑ g ∈ range f, s.fdof p g := by
  unfold Section.fieldOffset
  rw [loop_sum, zero_add]

/-- Places in a row of blocks. -/
theorem blocks_find (n : Nat) (g : Nat → Nat) : ∀ x < ∑ i ∈ range n, g i,
    ∃ i < n, ∑ j ∈ range i, g j ≤ x ∧ x < (∑ j ∈ range i, g j) + g i := by
  induction n with
  | zero => intro x hx; simp at hx
  | succ n ih =>
    intro x hx
    rw [sum_range_succ] at hx
    by_cases h : x < ∑ i ∈ range n, g i
    · obtain ⟨i, hi, hh⟩ := ih x h
      exact ⟨i, by omega, hh⟩
    · exact ⟨n, by omega, by omega, hx⟩

theorem blocks_le {g : Nat → Nat} {i j : Nat} (h : i < j) :
    (∑ k ∈ range i, g k) + g i ≤ ∑ k ∈ range j, g k := by
  rw [← sum_range_succ]
  exact sum_le_sum_of_subset (range_subset_range.2 h)

theorem blocks_same {g : Nat → Nat} {i j x : Nat} (h1 : ∑ k ∈ range i, g k ≤ x) (h2 : x < (∑ k ∈ range i, g k) + g i)
    (h3 : ∑ k ∈ range j, g k ≤ x) (h4 : x < (∑ k ∈ range j, g k) + g j) : i = j := by
  rcases Nat.lt_trichotomy i j with h | h | h
  · have := blocks_le (g := g) h
    omega
  · exact h
  · have := blocks_le (g := g) h
    omega

/-- A layout where the values of a point are those of its fields gives every value one place. -/
theorem one_place {s : Section} (h : ∀ p, s.pStart ≤ p → p < s.pEnd →
    s.dof p = ∑ f ∈ range s.nFields, s.fdof p f) : OnePlaceEach s := by
  have key : ∀ v, Has s v → (∑ i ∈ range (v.p - s.pStart), s.dof (s.pStart + i)) ≤ place s v ∧
      place s v < (∑ i ∈ range (v.p - s.pStart), s.dof (s.pStart + i)) + s.dof v.p ∧
      (∑ g ∈ range v.f, s.fdof v.p g) ≤ place s v - s.offset v.p ∧
      place s v - s.offset v.p < (∑ g ∈ range v.f, s.fdof v.p g) + s.fdof v.p v.f := by
    rintro v ⟨h1, h2, h3, h4⟩
    have := blocks_le (g := s.fdof v.p) h3
    rw [← h v.p h1 h2] at this
    have e : place s v = s.offset v.p + ∑ g ∈ range v.f, s.fdof v.p g + v.k := by
      unfold place
      rw [fieldOffset_sum]
    rw [← offset_sum]
    omega
  refine ⟨?_, ?_, ?_⟩
  · intro v hv
    obtain ⟨h1, h2, _⟩ := key v hv
    obtain ⟨hp1, hp2, _⟩ := hv
    have := blocks_le (g := fun i => s.dof (s.pStart + i)) (show v.p - s.pStart < s.pEnd - s.pStart by omega)
    rw [show s.pStart + (v.p - s.pStart) = v.p by omega] at this
    unfold Section.size
    rw [offset_sum s s.pEnd]
    omega
  · intro v w hv hw he
    obtain ⟨a1, a2, a3, a4⟩ := key v hv
    obtain ⟨b1, b2, b3, b4⟩ := key w hw
    have hp : v.p - s.pStart = w.p - s.pStart := by
      refine blocks_same (g := fun i => s.dof (s.pStart + i)) a1 ?_ (he ▸ b1) ?_
      · rw [show s.pStart + (v.p - s.pStart) = v.p by have := hv.1; omega]
        exact a2
      · rw [show s.pStart + (w.p - s.pStart) = w.p by have := hw.1; omega]
        exact he ▸ b2
    have hp' : v.p = w.p := by have := hv.1; have := hw.1; omega
    have hf : v.f = w.f := by
      rw [he, hp'] at a3 a4
      exact blocks_same a3 a4 b3 b4
    obtain ⟨p, f, k⟩ := v
    obtain ⟨p', f', k'⟩ := w
    dsimp only at hp' hf
    subst hp'
    subst hf
    unfold place at he
    dsimp only at he
    rw [show k = k' by omega]
  · intro i hi
    unfold Section.size at hi
    rw [offset_sum] at hi
    obtain ⟨j, hj, h1, h2⟩ := blocks_find _ _ i hi
    have hd := h (s.pStart + j) (by omega) (by omega)
    have ho : s.offset (s.pStart + j) = ∑ k ∈ range j, s.dof (s.pStart + k) := by
      rw [offset_sum]
      congr 2
      omega
    obtain ⟨f, hf, h3, h4⟩ := blocks_find s.nFields (s.fdof (s.pStart + j)) (i - s.offset (s.pStart + j))
      (by rw [← hd]; omega)
    refine ⟨⟨s.pStart + j, f, i - s.offset (s.pStart + j) - ∑ g ∈ range f, s.fdof (s.pStart + j) g⟩,
      ⟨by dsimp only; omega, by dsimp only; omega, hf, by dsimp only; omega⟩, ?_⟩
    unfold place
    rw [fieldOffset_sum]
    dsimp only
    omega

/-- What a loop over points that sets one field leaves. -/
theorem setLoop (n b f d : Nat) (s : Section) :
    forN n (fun i s => (s.setFieldDof (b + i) f d).setDof (b + i) d) s =
      { s with
        fdof := fun p g => if b ≤ p ∧ p < b + n ∧ g = f then d else s.fdof p g
        dof := fun p => if b ≤ p ∧ p < b + n then d else s.dof p } := by
  induction n with
  | zero =>
    rw [forN]
    have e : ∀ p, ¬ (b ≤ p ∧ p < b + 0) := fun p => by omega
    have e' : ∀ p g, ¬ (b ≤ p ∧ p < b + 0 ∧ g = f) := fun p g => by omega
    simp only [e, e', if_false]
  | succ n ih =>
    rw [forN, ih]
    unfold Section.setFieldDof Section.setDof
    dsimp only
    congr 1
    · funext p g
      by_cases hp : p = b + n
      · subst hp
        rw [wr_same]
        by_cases hg : g = f
        · subst hg
          rw [wr_same, if_pos (by omega)]
        · rw [wr_other _ _ hg]
          rw [if_neg (by omega), if_neg (by omega)]
      · rw [wr_other _ _ hp]
        exact if_congr (by omega) rfl rfl
    · funext p
      by_cases hp : p = b + n
      · subst hp
        rw [wr_same, if_pos (by omega)]
      · rw [wr_other _ _ hp]
        exact if_congr (by omega) rfl rfl

theorem wy_is (m : Points) : (wySection m).pStart = 0 ∧ (wySection m).pEnd = m.pEnd ∧ (wySection m).nFields = 1 ∧
    (∀ p g, (wySection m).fdof p g =
      if m.cStart ≤ p ∧ p < m.cStart + (m.cEnd - m.cStart) ∧ g = 0 then 1 else 0) ∧
    ∀ p, (wySection m).dof p = if m.cStart ≤ p ∧ p < m.cStart + (m.cEnd - m.cStart) then 1 else 0 := by
  unfold wySection
  dsimp only
  rw [setLoop]
  exact ⟨rfl, rfl, rfl, fun _ _ => rfl, fun _ => rfl⟩

theorem twos (n : Nat) : forN n (fun _ (a : Nat) => a*2) 1 = 2^n := by
  induction n with
  | zero => rfl
  | succ n ih => rw [forN, ih, pow_succ]

theorem bdm_is (m : Points) : (bdmSection m).pStart = 0 ∧ (bdmSection m).pEnd = m.pEnd ∧ (bdmSection m).nFields = 2 ∧
    (∀ p g, (bdmSection m).fdof p g =
      if m.fStart ≤ p ∧ p < m.fStart + (m.fEnd - m.fStart) ∧ g = 1 then 2^(m.dim - 1)
      else if m.cStart ≤ p ∧ p < m.cStart + (m.cEnd - m.cStart) ∧ g = 0 then 1 else 0) ∧
    ∀ p, (bdmSection m).dof p = if m.fStart ≤ p ∧ p < m.fStart + (m.fEnd - m.fStart) then 2^(m.dim - 1)
      else if m.cStart ≤ p ∧ p < m.cStart + (m.cEnd - m.cStart) then 1 else 0 := by
  unfold bdmSection
  dsimp only
  rw [setLoop, setLoop, twos]
  exact ⟨rfl, rfl, rfl, fun _ _ => rfl, fun _ => rfl⟩

theorem fieldLoop (n p : Nat) (d : Nat → Nat) (s : Section) :
    forN n (fun f s => s.setFieldDof p f (d f)) s =
      { s with fdof := fun q g => if q = p ∧ g < n then d g else s.fdof q g } := by
  induction n with
  | zero =>
    rw [forN]
    simp only [Nat.not_lt_zero, and_false, if_false]
  | succ n ih =>
    rw [forN, ih]
    unfold Section.setFieldDof
    dsimp only
    congr 1
    funext q g
    by_cases hq : q = p
    · subst hq
      rw [wr_same]
      by_cases hg : g = n
      · subst hg
        rw [wr_same, if_pos ⟨rfl, by omega⟩]
      · rw [wr_other _ _ hg]
        exact if_congr (by omega) rfl rfl
    · rw [wr_other _ _ hq]
      rw [if_neg (fun h => hq h.1), if_neg (fun h => hq h.1)]

theorem cellLoop (n b nf t : Nat) (d : Nat → Nat) (s : Section) :
    forN n (fun i s => (forN nf (fun f s => s.setFieldDof (b + i) f (d f)) s).setDof (b + i) t) s =
      { s with
        fdof := fun p g => if b ≤ p ∧ p < b + n ∧ g < nf then d g else s.fdof p g
        dof := fun p => if b ≤ p ∧ p < b + n then t else s.dof p } := by
  induction n with
  | zero =>
    rw [forN]
    have e : ∀ p, ¬ (b ≤ p ∧ p < b + 0) := fun p => by omega
    have e' : ∀ p g, ¬ (b ≤ p ∧ p < b + 0 ∧ g < nf) := fun p g => by omega
    simp only [e, e', if_false]
  | succ n ih =>
    rw [forN, ih, fieldLoop]
    unfold Section.setDof
    dsimp only
    congr 1
    · funext p g
      by_cases hp : p = b + n ∧ g < nf
      · rw [if_pos hp, if_pos (by omega)]
      · rw [if_neg hp]
        exact if_congr (by omega) rfl rfl
    · funext p
      by_cases hp : p = b + n
      · subst hp
        rw [wr_same, if_pos (by omega)]
      · rw [wr_other _ _ hp]
        exact if_congr (by omega) rfl rfl

theorem nameLoop (n : Nat) (nm : Nat → String) (d : Nat → Nat) (s : Section) (t : Nat) :
    forN n (fun f (r : Section × Nat) =>
      ({ r.1 with name := wr r.1.name f (nm f), comps := wr r.1.comps f (d f) }, r.2 + d f)) (s, t) =
      ({ s with
        name := fun f => if f < n then nm f else s.name f
        comps := fun f => if f < n then d f else s.comps f }, t + ∑ f ∈ range n, d f) := by
  induction n with
  | zero =>
    rw [forN]
    simp only [Nat.not_lt_zero, if_false, range_zero, sum_empty, add_zero]
  | succ n ih =>
    rw [forN, ih, sum_range_succ]
    dsimp only
    rw [add_assoc]
    congr 2
    · funext f
      by_cases hf : f = n
      · subst hf
        rw [wr_same, if_pos (by omega)]
      · rw [wr_other _ _ hf]
        exact if_congr (by omega) rfl rfl
    · funext f
      by_cases hf : f = n
      · subst hf
        rw [wr_same, if_pos (by omega)]
      · rw [wr_other _ _ hf]
        exact if_congr (by omega) rfl rfl

theorem setFields_is (m : Points) (nf : Nat) (nm : Nat → String) (d : Nat → Nat) :
    (setFields m nf nm d).pStart = m.cStart ∧ (setFields m nf nm d).pEnd = m.cEnd ∧
    (setFields m nf nm d).nFields = nf ∧ (∀ f < nf, (setFields m nf nm d).name f = nm f) ∧
    (∀ p, m.cStart ≤ p → p < m.cEnd → ∀ g < nf, (setFields m nf nm d).fdof p g = d g) ∧
    ∀ p, m.cStart ≤ p → p < m.cEnd → (setFields m nf nm d).dof p = ∑ f ∈ range nf, d f := by
  unfold setFields
  dsimp only
  rw [nameLoop]
  dsimp only
  rw [cellLoop]
  refine ⟨rfl, rfl, rfl, fun f hf => if_pos hf, fun p h1 h2 g hg => if_pos ⟨h1, by omega, hg⟩,
    fun p h1 h2 => ?_⟩
  dsimp only
  rw [if_pos ⟨h1, by omega⟩, zero_add]

/-- C184.  In every layout each value has a place of its own, and vectors hold nothing else. -/
theorem C184_one_place (m : Points) : (∀ f, OnePlaceEach (fvSection f m)) ∧ OnePlaceEach (wySection m) ∧
    (m.cEnd ≤ m.fStart → OnePlaceEach (bdmSection m)) := by
  refine ⟨fun f => one_place fun p h1 h2 => ?_, one_place fun p _ _ => ?_, fun hm => one_place fun p _ _ => ?_⟩
  · obtain ⟨e1, e2, e3, _, e4, e5⟩ := setFields_is m (fieldNames f).length (fun i => (fieldNames f).getD i "") (fun _ => 1)
    unfold fvSection at h1 h2 ⊢
    rw [e1] at h1
    rw [e2] at h2
    rw [e5 p h1 h2, e3]
    exact sum_congr rfl fun g hg => (e4 p h1 h2 g (mem_range.1 hg)).symm
  · obtain ⟨_, _, e3, e4, e5⟩ := wy_is m
    rw [e5, e3, sum_range_one, e4]
    exact if_congr (by omega) rfl rfl
  · obtain ⟨_, _, e3, e4, e5⟩ := bdm_is m
    rw [e5, e3, sum_range_succ, sum_range_one, e4, e4]
    by_cases h1 : m.fStart ≤ p ∧ p < m.fStart + (m.fEnd - m.fStart)
    · rw [if_pos h1, if_neg (fun h => absurd h.2.2 zero_ne_one), if_neg (by omega), if_pos ⟨h1.1, h1.2, rfl⟩, zero_add]
    · have h2 : ∀ g, ¬ (m.fStart ≤ p ∧ p < m.fStart + (m.fEnd - m.fStart) ∧ g = 1) := fun g h => h1 ⟨h.1, h.2.1⟩
      rw [if_neg h1, if_neg (h2 0), if_neg (h2 1)]
      simp

/-- C184.  Finite volumes: the values of a cell follow each other, in the order of its fields, and cells
in theirs.  With `n` fields value `f` of cell `c` is at `n c + f`, where the code reads it. -/
theorem C184_cell_values (fn : Fn) (m : Points) (hm : m.cStart = 0) :
    (fvSection fn m).size = m.cEnd*(fieldNames fn).length ∧
    ∀ c < m.cEnd, ∀ f < (fieldNames fn).length, Has (fvSection fn m) ⟨c, f, 0⟩ ∧
      place (fvSection fn m) ⟨c, f, 0⟩ = c*(fieldNames fn).length + f ∧
      (fvSection fn m).name f = (fieldNames fn).getD f "" := by
  obtain ⟨e1, e2, e3, e6, e4, e5⟩ := setFields_is m (fieldNames fn).length (fun i => (fieldNames fn).getD i "") (fun _ => 1)
  have ho : ∀ c ≤ m.cEnd, (fvSection fn m).offset c = c*(fieldNames fn).length := by
    intro c hc
    rw [offset_sum]
    unfold fvSection
    rw [e1, hm, Nat.sub_zero]
    rw [sum_congr rfl fun i hi => by
      have := mem_range.1 hi
      exact e5 (0 + i) (by omega) (by omega)]
    simp
  refine ⟨?_, fun c hc f hf => ⟨⟨?_, ?_, ?_, ?_⟩, ?_, e6 f hf⟩⟩
  · unfold Section.size
    rw [show (fvSection fn m).pEnd = m.cEnd from e2]
    exact ho _ le_rfl
  · rw [show (fvSection fn m).pStart = m.cStart from e1, hm]
    exact Nat.zero_le _
  · rw [show (fvSection fn m).pEnd = m.cEnd from e2]
    exact hc
  · rw [show (fvSection fn m).nFields = _ from e3]
    exact hf
  · show 0 < (fvSection fn m).fdof c f
    rw [show (fvSection fn m).fdof c f = 1 from e4 c (by omega) hc f hf]
    exact one_pos
  · unfold place
    rw [fieldOffset_sum, ho c hc.le]
    dsimp only
    rw [sum_congr rfl fun g hg => by
      have := mem_range.1 hg
      exact e4 c (by omega) hc g (by omega)]
    simp

/-- C184.  Whatever was set before, the unknowns of a finite volume method are those of its mode: unknown
`f` of cell `c` is called `unknowns[f]` and lies at `n c + f`, where `n` is the number of unknowns. -/
theorem C184_unknowns (old ops : Ops) (mode : Mode) (d : Disc) (hd : FiniteVolume d)
    (h : installOps old mode d = some ops) (m : Points) (hm : m.cStart = 0) :
    ∃ fn, ops.setDmFields = some fn ∧ (fvSection fn m).nFields = (unknowns mode d).length ∧
      (fvSection fn m).size = m.cEnd*(unknowns mode d).length ∧
      ∀ c < m.cEnd, ∀ f < (unknowns mode d).length, Has (fvSection fn m) ⟨c, f, 0⟩ ∧
        place (fvSection fn m) ⟨c, f, 0⟩ = c*(unknowns mode d).length + f ∧
        (fvSection fn m).name f = (unknowns mode d).getD f "" := by
  have key : ∃ fn, ops.setDmFields = some fn ∧ fieldNames fn = unknowns mode d := by
    obtain ⟨h1, h2⟩ := hd
    cases mode <;> cases d <;> first
      | exact absurd rfl h1
      | exact absurd rfl h2
      | (cases h; exact ⟨_, rfl, rfl⟩)
      | cases h
  obtain ⟨fn, e, he⟩ := key
  refine ⟨fn, e, ?_⟩
  rw [← he]
  refine ⟨?_, C184_cell_values fn m hm⟩
  obtain ⟨_, _, e3, _⟩ := setFields_is m (fieldNames fn).length (fun i => (fieldNames fn).getD i "") (fun _ => 1)
  exact e3

/-- C184.  WY: the pressure of cell `c` is at `c`, and the vector is as long as there are cells. -/
theorem C184_wy_values (m : Points) (hm : Ordered m) :
    (wySection m).size = m.cEnd ∧ ∀ c < m.cEnd, Has (wySection m) ⟨c, 0, 0⟩ ∧ place (wySection m) ⟨c, 0, 0⟩ = c := by
  obtain ⟨e1, e2, e3, e4, e5⟩ := wy_is m
  have hc0 := hm.first
  have h1 := hm.cells
  have h2 := hm.faces
  have h3 := hm.last
  have ho : ∀ p, (wySection m).offset p = min p m.cEnd := by
    intro p
    rw [offset_sum, e1, Nat.sub_zero]
    induction p with
    | zero => simp
    | succ p ih =>
      rw [sum_range_succ, ih, e5, hc0]
      by_cases h : p < m.cEnd
      · rw [if_pos (by omega)]
        omega
      · rw [if_neg (by omega)]
        omega
  refine ⟨?_, fun c hc => ⟨⟨?_, ?_, ?_, ?_⟩, ?_⟩⟩
  · unfold Section.size
    rw [ho, e2]
    omega
  · rw [e1]; exact Nat.zero_le _
  · rw [e2]; exact lt_of_lt_of_le hc (by omega)
  · rw [e3]; exact one_pos
  · show 0 < (wySection m).fdof c 0
    rw [e4, if_pos (by omega)]
    exact one_pos
  · unfold place
    rw [fieldOffset_sum, ho]
    simp
    omega

/-- C184.  BDM: the pressure of cell `c` is at `c`; the velocities of the faces follow, `2^(dim-1)` of each
face. -/
theorem C184_bdm_values (m : Points) (hm : Ordered m) :
    (bdmSection m).size = m.cEnd + (m.fEnd - m.fStart)*2^(m.dim - 1) ∧
    (∀ c < m.cEnd, Has (bdmSection m) ⟨c, 0, 0⟩ ∧ place (bdmSection m) ⟨c, 0, 0⟩ = c) ∧
    ∀ f, m.fStart ≤ f → f < m.fEnd → ∀ k < 2^(m.dim - 1), Has (bdmSection m) ⟨f, 1, k⟩ ∧
      place (bdmSection m) ⟨f, 1, k⟩ = m.cEnd + (f - m.fStart)*2^(m.dim - 1) + k := by
  obtain ⟨e1, e2, e3, e4, e5⟩ := bdm_is m
  have hc0 := hm.first
  have h1 := hm.cells
  have h2 := hm.faces
  have h3 := hm.last
  have ho : ∀ p, (bdmSection m).offset p = min p m.cEnd + (min p m.fEnd - m.fStart)*2^(m.dim - 1) := by
    intro p
    rw [offset_sum, e1, Nat.sub_zero]
    induction p with
    | zero => simp
    | succ p ih =>
      rw [sum_range_succ, ih, e5, hc0]
      by_cases hc : p < m.cEnd
      · rw [if_neg (by omega), if_pos (by omega)]
        rw [show min p m.fEnd - m.fStart = 0 by omega, show min (p + 1) m.fEnd - m.fStart = 0 by omega]
        omega
      · by_cases hf : m.fStart ≤ 0 + p ∧ 0 + p < m.fStart + (m.fEnd - m.fStart)
        · rw [if_pos hf, show min (p + 1) m.fEnd - m.fStart = (min p m.fEnd - m.fStart) + 1 by omega,
            show min (p + 1) m.cEnd = min p m.cEnd by omega]
          ring
        · rw [if_neg hf, if_neg (by omega),
            show min (p + 1) m.fEnd - m.fStart = min p m.fEnd - m.fStart by omega,
            show min (p + 1) m.cEnd = min p m.cEnd by omega]
          ring
  refine ⟨?_, fun c hc => ⟨⟨?_, ?_, ?_, ?_⟩, ?_⟩, fun f hf1 hf2 k hk => ⟨⟨?_, ?_, ?_, ?_⟩, ?_⟩⟩
  · unfold Section.size
    rw [ho, e2, show min m.pEnd m.cEnd = m.cEnd by omega, show min m.pEnd m.fEnd = m.fEnd by omega]
  · rw [e1]; exact Nat.zero_le _
  · rw [e2]; exact lt_of_lt_of_le hc (by omega)
  · rw [e3]; exact two_pos
  · show 0 < (bdmSection m).fdof c 0
    rw [e4, if_neg (by omega), if_pos (by omega)]
    exact one_pos
  · unfold place
    rw [fieldOffset_sum, ho]
    dsimp only
    rw [show min c m.fEnd - m.fStart = 0 by omega, range_zero, sum_empty]
    omega
  · rw [e1]; exact Nat.zero_le _
  · rw [e2]; exact lt_of_lt_of_le hf2 (by omega)
  · rw [e3]; exact one_lt_two
  · show k < (bdmSection m).fdof f 1
    rw [e4, if_pos (by omega)]
    exact hk
  · unfold place
    rw [fieldOffset_sum, ho]
    dsimp only
    rw [sum_range_one, e4, if_neg (by omega), if_neg (by omega), show min f m.cEnd = m.cEnd by omega,
      show min f m.fEnd = f by omega]
    ring

/-- C184.  BDM on one process: the layout gives the unknowns of different faces, and the pressures, different
numbers, as C115 requires. -/
theorem C184_bdm_blocks (m : TDy.Fe.Plex) (q : Points) (hq : Ordered q) (hd : q.dim = m.dim)
    (hc : q.cEnd = m.nCells) (hf1 : q.fStart = m.fStart) (hf2 : q.fEnd = m.fEnd) (hn : m.nfv ≤ 2^(m.dim - 1)) :
    TDy.Fe.Props.Blocks m (fun p => ((bdmSection q).offset p : Int)) := by
  obtain ⟨_, h1, h2⟩ := C184_bdm_values q hq
  have hone := ((C184_one_place q).2.2 hq.cells).2.1
  obtain ⟨_, _, _, e4, _⟩ := bdm_is q
  have face : ∀ f, m.isFace f = true → q.fStart ≤ f ∧ f < q.fEnd := by
    intro f hf
    unfold TDy.Fe.Plex.isFace at hf
    rw [Bool.and_eq_true, decide_eq_true_eq, decide_eq_true_eq] at hf
    omega
  have hpf : ∀ f, m.isFace f = true → ∀ i, place (bdmSection q) ⟨f, 1, i⟩ = (bdmSection q).offset f + i := by
    intro f hf i
    have := face f hf
    have := hq.cells
    unfold place
    rw [fieldOffset_sum]
    dsimp only
    rw [sum_range_one, e4, if_neg (by omega), if_neg (by omega), add_zero]
  have hpc : ∀ c, place (bdmSection q) ⟨c, 0, 0⟩ = (bdmSection q).offset c := by
    intro c
    unfold place
    rw [fieldOffset_sum]
    rfl
  have dec : ∀ n : Nat, TDy.Fe.decode (n : Int) = n := by
    intro n
    unfold TDy.Fe.decode
    rw [if_neg (by omega)]
  have lt : ∀ i < m.nfv, i < 2^(q.dim - 1) := fun i hi => by rw [hd]; omega
  constructor
  · intro f g hf hg hne i hi j hj he
    rw [dec, dec] at he
    have hv := (h2 f (face f hf).1 (face f hf).2 i (lt i hi)).1
    have hw := (h2 g (face g hg).1 (face g hg).2 j (lt j hj)).1
    have := hone _ _ hv hw (by rw [hpf f hf, hpf g hg]; omega)
    exact hne (congrArg Value.p this)
  · intro c hcc f hf i hi he
    rw [dec, dec] at he
    have hv := (h1 c (by omega)).1
    have hw := (h2 f (face f hf).1 (face f hf).2 i (lt i hi)).1
    have := hone _ _ hv hw (by rw [hpc, hpf f hf]; omega)
    exact absurd (congrArg Value.f this) zero_ne_one

/-- C184.  Diagnostics on meshes of dimension three, whose cells have depth 3 and come first: saturation
of cell `c` is at `2c`, its mass at `2c+1`. -/
theorem C184_diagnostics (m : Points) (depth : Nat → Nat) (h3 : m.dim = 3) (hm : Ordered m)
    (hd : ∀ p < m.pEnd, depth p ≤ 3 ∧ (depth p = 3 ↔ p < m.cEnd)) :
    OnePlaceEach (diagSection m depth) ∧ (diagSection m depth).size = m.cEnd*2 ∧
    (∀ c < m.cEnd, ∀ f < 2, Has (diagSection m depth) ⟨c, f, 0⟩ ∧ place (diagSection m depth) ⟨c, f, 0⟩ = c*2 + f) ∧
    (diagSection m depth).name 0 = "LiquidSaturation" ∧ (diagSection m depth).name 1 = "LiquidMass" := by
  have hc := hm.cells
  have hf := hm.faces
  have hl := hm.last
  have hfd : ∀ p < m.pEnd, ∀ f < 2, (diagSection m depth).fdof p f = if p < m.cEnd then 1 else 0 := by
    intro p hp f hf
    obtain ⟨d1, d2⟩ := hd p hp
    unfold diagSection
    dsimp only
    rw [if_pos hf, h3]
    unfold wr
    by_cases hpc : p < m.cEnd
    · rw [if_pos hpc, d2.2 hpc]
      have : f = 0 ∨ f = 1 := by omega
      rcases this with rfl | rfl <;> simp
    · rw [if_neg hpc]
      have : depth p ≠ 3 := fun h => hpc (d2.1 h)
      rw [if_neg (by omega), if_neg (by omega)]
  have hdof : ∀ p < m.pEnd, (diagSection m depth).dof p = if p < m.cEnd then 2 else 0 := by
    intro p hp
    have e : (diagSection m depth).dof p = ∑ f ∈ range 2, (diagSection m depth).fdof p f := by
      unfold diagSection
      dsimp only
      rw [loop_sum, zero_add]
      refine sum_congr rfl fun f hf => ?_
      rw [if_pos (mem_range.1 hf)]
    rw [e, sum_range_succ, sum_range_one, hfd p hp 0 (by omega), hfd p hp 1 (by omega)]
    split <;> rfl
  have ho : ∀ p ≤ m.pEnd, (diagSection m depth).offset p = min p m.cEnd*2 := by
    intro p
    rw [offset_sum, show (diagSection m depth).pStart = 0 from rfl, Nat.sub_zero]
    induction p with
    | zero => intro _; simp
    | succ p ih =>
      intro hp
      rw [sum_range_succ, ih (by omega), hdof (0 + p) (by omega)]
      by_cases h : p < m.cEnd
      · rw [if_pos (by omega)]
        omega
      · rw [if_neg (by omega)]
        omega
  refine ⟨one_place fun p _ hp => ?_, ?_, fun c hc' f hf => ⟨⟨Nat.zero_le _, ?_, hf, ?_⟩, ?_⟩, rfl, rfl⟩
  · change p < m.pEnd at hp
    rw [hdof p hp, show (diagSection m depth).nFields = 2 from rfl, sum_range_succ, sum_range_one,
      hfd p hp 0 (by omega), hfd p hp 1 (by omega)]
    split <;> rfl
  · unfold Section.size
    rw [show (diagSection m depth).pEnd = m.pEnd from rfl, ho _ le_rfl]
    omega
  · show c < m.pEnd
    omega
  · show 0 < (diagSection m depth).fdof c f
    rw [hfd c (by omega) f hf, if_pos hc']
    exact one_pos
  · unfold place
    rw [fieldOffset_sum, ho c (by omega)]
    dsimp only
    rw [sum_congr rfl fun g hg => by
      have := mem_range.1 hg
      exact hfd c (by omega) g (by omega), if_pos hc']
    simp
    omega

namespace SectionWitness

/-- Two hexahedra: cells 0 and 1, vertices 2 to 13, faces 14 to 24, edges 25 to 44. -/
def pair : Points := ⟨3, 45, 0, 2, 14, 25⟩

example : Ordered pair := ⟨rfl, by decide, by decide, by decide⟩

/-- Temperature of the second cell, and velocities of the first face, lie where they should. -/
example : place (fvSection ⟨.mpfao, .th⟩ pair) ⟨1, 1, 0⟩ = 3 ∧ (fvSection ⟨.mpfao, .th⟩ pair).size = 4 ∧
    (fvSection ⟨.mpfao, .th⟩ pair).name 1 = "LiquidTemperature" ∧
    place (bdmSection pair) ⟨14, 1, 3⟩ = 5 ∧ (bdmSection pair).size = 46 := by decide

/-- The mode of the witness: temperature and pressure with MPFA-O. -/
example : ∃ ops, installOps {} .th .mpfaO = some ops ∧ FiniteVolume .mpfaO := ⟨_, rfl, by decide, by decide⟩

/-- The depths of the points of the pair. -/
def pairDepth (p : Nat) : Nat := if p < 2 then 3 else if p < 14 then 0 else if p < 25 then 2 else 1

example : (∀ p < pair.pEnd, pairDepth p ≤ 3 ∧ (pairDepth p = 3 ↔ p < pair.cEnd)) ∧
    (diagSection pair pairDepth).size = 4 := by decide

/-- The two squares of C115. -/
example : TDy.Fe.Props.Blocks TDy.Fe.Props.MapWitness.mesh (fun p => ((bdmSection ⟨2, 15, 0, 2, 8, 15⟩).offset p : Int)) :=
  C184_bdm_blocks _ _ ⟨rfl, by decide, by decide, by decide⟩ rfl rfl rfl rfl (by show 2 ≤ 2^(2 - 1); decide)

end SectionWitness

end TDy.Sections.Props
