import Verif.Spec.BdmParallel
import Verif.Props.Bdm
import Mathlib.Tactic.IntervalCases

/-!
# C196: the BDM system does not depend on how the mesh is distributed
-/

namespace TDy.Fe.Props

open TDy TDy.Fe TDy.Fe.Spec TDy.Fe.Proofs Finset

noncomputable section

theorem forN_same {σ : Type} : ∀ (n : Nat) (f h : Nat → σ → σ) (s : σ),
    (∀ i < n, ∀ t, f i t = h i t) → forN n f s = forN n h s := by
  intro n
  induction n with
  | zero => intro f h s _; rfl
  | succ n ih =>
    intro f h s e
    rw [forN, forN, ih f h s fun i hi => e i (by omega), e n (by omega)]

theorem faceDirSide_seen {g : Bdm} {num : Equiv.Perm Nat} {d c : BCell} (h : SameBCell g num d c)
    {i : Nat} (hi : i < d.nFaces) :
    faceDirSide g.dim g.nv c.emap (c.face i).id = faceDirSide g.dim g.nv d.emap (d.face i).id := by
  unfold faceDirSide
  refine forN_same _ _ _ _ fun v hv r => forN_same _ _ _ _ fun k hk r => ?_
  have hb : v*g.dim + k < g.nv*g.dim := by
    have : (v + 1)*g.dim ≤ g.nv*g.dim := Nat.mul_le_mul_right _ hv
    rw [Nat.add_mul, Nat.one_mul] at this
    omega
  simp only [h.refers i hi _ hb]

theorem element_seen {g : Bdm} {num : Equiv.Perm Nat} {d c : BCell} (h : SameBCell g num d c)
    (kinv : Nat → ℝ) : element g c kinv = element g d kinv := by
  have hq : quadrature g c kinv ⟨fun _ _ => 0, fun _ => 0⟩
      = quadrature g d kinv ⟨fun _ _ => 0, fun _ => 0⟩ := by
    unfold quadrature
    rw [h.nq, h.pt]
  have hb : ∀ F, boundaryFaces g c F = boundaryFaces g d F := by
    intro F
    unfold boundaryFaces
    rw [h.nFaces]
    refine forN_same _ _ _ _ fun i hi r => ?_
    obtain ⟨f1, f2, f3, f4, f5⟩ := h.face i hi
    congr 1
    funext F
    rw [f1]
    split
    · unfold integratePressureBoundary
      rw [faceDirSide_seen h hi, f4, f5]
      have : outwardNormal (c.face i) = outwardNormal (d.face i) := by
        unfold outwardNormal; rw [f2, f3]
      rw [this]
    · rfl
  have ho : ∀ e, orientation g c e = orientation g d e := by
    intro e
    unfold orientation
    rw [h.orient]
  unfold element
  simp only [hq, hb, ho]

/-- Only dimension, vertices per cell and conditions of the mesh enter the element of a cell. -/
theorem element_conditions {g l : Bdm} (h1 : l.dim = g.dim) (h2 : l.nv = g.nv)
    (h3 : l.hasForcing = g.hasForcing) (h4 : l.hasPressure = g.hasPressure) (c : BCell)
    (kinv : Nat → ℝ) : element l c kinv = element g c kinv := by
  obtain ⟨_, _, _, _, _, _⟩ := g
  obtain ⟨_, _, _, _, _, _⟩ := l
  simp only at h1 h2 h3 h4
  subst h1 h2 h3 h4
  rfl

theorem located_seen {g l : Bdm} {Kg Kl : Nat → Nat → ℝ} {cell : Nat → Nat} {num : Equiv.Perm Nat}
    (h : SeesBdm g l Kg Kl cell num) {a : Nat} (ha : a < l.nCells) (ho : (l.cell a).owned = true)
    (hl : Located g (g.cell (cell a))) : Located l (l.cell a) := by
  rw [← element_iff l (l.cell a) fun _ => 0, element_conditions h.dim h.nv h.hasForcing h.hasPressure,
    element_seen (h.same a ha ho), element_iff]
  exact hl

theorem elemOf_seen {g l : Bdm} {Kg Kl : Nat → Nat → ℝ} {cell : Nat → Nat} {num : Equiv.Perm Nat}
    (h : SeesBdm g l Kg Kl cell num) {a : Nat} (ha : a < l.nCells) (ho : (l.cell a).owned = true)
    (lu : (Nat → ℝ) → Nat → ℝ) :
    elemOf l (l.cell a) (inverted lu l.dim (Kl a))
      = elemOf g (g.cell (cell a)) (inverted lu g.dim (Kg (cell a))) := by
  unfold elemOf
  rw [element_conditions h.dim h.nv h.hasForcing h.hasPressure, element_seen (h.same a ha ho), h.dim,
    h.perm a ha ho]

/-- C196.  If one process can assemble the system, each of several processes can assemble its part. -/
theorem C196_defined (lu : (Nat → ℝ) → Nat → ℝ) (g : Bdm) (Kg : Nat → Nat → ℝ)
    (all : ∀ c < g.nCells, (g.cell c).owned = true) (sg : BState)
    (hg : bdmComputeSystem lu g (empty Kg) = .ok sg) (l : Bdm) (Kl : Nat → Nat → ℝ)
    (cell : Nat → Nat) (num : Equiv.Perm Nat) (h : SeesBdm g l Kg Kl cell num) :
    ∃ sl, bdmComputeSystem lu l (empty Kl) = .ok sl := by
  obtain ⟨-, hl⟩ := compute_ok hg
  obtain ⟨t, ht, -⟩ := run_ok lu l (empty Kl) l.nCells fun i hi ho =>
    located_seen h hi ho (hl _ (h.there i hi ho) (all _ (h.there i hi ho)))
  exact ⟨t, ht⟩

theorem sum_owned_once (g : Bdm) (P : Nat) (l : Nat → Bdm) (cell : Nat → Nat → Nat)
    (there : ∀ p < P, ∀ a < (l p).nCells, ((l p).cell a).owned = true → cell p a < g.nCells)
    (once : OwnedOnce g P l cell) (f : Nat → ℝ) :
    ∑ p ∈ range P, ∑ a ∈ range (l p).nCells, (if ((l p).cell a).owned = true then f (cell p a) else 0)
      = ∑ c ∈ range g.nCells, f c := by
  have e1 : ∀ p ∈ range P, ∀ a ∈ range (l p).nCells,
      (if ((l p).cell a).owned = true then f (cell p a) else 0)
        = ∑ c ∈ range g.nCells, if ((l p).cell a).owned = true ∧ cell p a = c then f c else 0 := by
    intro p hp a ha
    by_cases ho : ((l p).cell a).owned = true
    · simp only [ho, if_true, true_and]
      rw [sum_ite_eq, if_pos (mem_range.2 (there p (mem_range.1 hp) a (mem_range.1 ha) ho))]
    · simp [ho]
  rw [sum_congr rfl fun p hp => sum_congr rfl (e1 p hp)]
  rw [sum_congr rfl fun p _ => sum_comm, sum_comm]
  refine sum_congr rfl fun c hc => ?_
  obtain ⟨p, hp, a, ha, ho, hca, huniq⟩ := once c (mem_range.1 hc)
  rw [sum_eq_single p, sum_eq_single a]
  · rw [if_pos ⟨ho, hca⟩]
  · intro a' ha' hne
    refine if_neg fun hh => hne (huniq p hp a' (mem_range.1 ha') hh.1 hh.2).2
  · intro hn; exact absurd (mem_range.2 ha) hn
  · intro p' hp' hne
    refine sum_eq_zero fun a' ha' => if_neg fun hh => hne (huniq p' (mem_range.1 hp') a' (mem_range.1 ha') hh.1 hh.2).1
  · intro hn; exact absurd (mem_range.2 hp) hn

/-- **C196.**  Added up over the processes, when each cell is owned by exactly one of them, matrix and
right hand side are those one process assembles for the whole mesh. -/
theorem C196_assembled (lu : (Nat → ℝ) → Nat → ℝ) (g : Bdm) (Kg : Nat → Nat → ℝ)
    (all : ∀ c < g.nCells, (g.cell c).owned = true) (sg : BState)
    (hg : bdmComputeSystem lu g (empty Kg) = .ok sg) (P : Nat) (l : Nat → Bdm)
    (Kl : Nat → Nat → Nat → ℝ) (cell : Nat → Nat → Nat) (num : Equiv.Perm Nat)
    (sees : ∀ p < P, SeesBdm g (l p) Kg (Kl p) (cell p) num) (once : OwnedOnce g P l cell)
    (sl : Nat → BState) (hl : ∀ p < P, bdmComputeSystem lu (l p) (empty (Kl p)) = .ok (sl p)) :
    (∀ a a', ∑ p ∈ range P, (sl p).K (num a) (num a') = sg.K a a')
    ∧ ∀ a, ∑ p ∈ range P, (sl p).F (num a) = sg.F a := by
  have rg := (compute_ok hg).1
  have key := sum_owned_once g P l cell (fun p hp a ha ho => (sees p hp).there a ha ho) once
  constructor
  · intro a a'
    rw [rg.K]
    show _ = (0 : ℝ) + _
    rw [zero_add]
    rw [sum_congr rfl fun c hc => if_pos (all c (mem_range.1 hc))]
    rw [← key fun c => ∑ k ∈ range (g.dim*g.nv + 1), ∑ j ∈ range (g.dim*g.nv + 1),
      (if a = (g.cell c).ltog k ∧ a' = (g.cell c).ltog j then
        (elemOf g (g.cell c) (inverted lu g.dim ((empty Kg).perm c))).K k j else 0)]
    refine sum_congr rfl fun p hp => ?_
    have hp := mem_range.1 hp
    have h := sees p hp
    rw [(compute_ok (hl p hp)).1.K]
    show (0 : ℝ) + _ = _
    rw [zero_add]
    refine sum_congr rfl fun i hi => ?_
    have hi := mem_range.1 hi
    by_cases ho : ((l p).cell i).owned = true
    · rw [if_pos ho, if_pos ho, h.dim, h.nv]
      refine sum_congr rfl fun k hk => sum_congr rfl fun j hj => ?_
      have hs := h.same i hi ho
      rw [hs.row k (mem_range.1 hk), hs.row j (mem_range.1 hj)]
      simp only [num.injective.eq_iff]
      have := elemOf_seen h hi ho lu
      rw [h.dim] at this
      show (if _ then (elemOf (l p) ((l p).cell i) (inverted lu g.dim (Kl p i))).K k j else 0) = _
      rw [this]
      rfl
    · rw [if_neg ho, if_neg ho]
  · intro a
    rw [rg.F]
    show _ = (0 : ℝ) + _
    rw [zero_add]
    rw [sum_congr rfl fun c hc => if_pos (all c (mem_range.1 hc))]
    rw [← key fun c => ∑ k ∈ range (g.dim*g.nv + 1), (if a = (g.cell c).ltog k then
        (elemOf g (g.cell c) (inverted lu g.dim ((empty Kg).perm c))).F k else 0)]
    refine sum_congr rfl fun p hp => ?_
    have hp := mem_range.1 hp
    have h := sees p hp
    rw [(compute_ok (hl p hp)).1.F]
    show (0 : ℝ) + _ = _
    rw [zero_add]
    refine sum_congr rfl fun i hi => ?_
    have hi := mem_range.1 hi
    by_cases ho : ((l p).cell i).owned = true
    · rw [if_pos ho, if_pos ho, h.dim, h.nv]
      refine sum_congr rfl fun k hk => ?_
      have hs := h.same i hi ho
      rw [hs.row k (mem_range.1 hk)]
      simp only [num.injective.eq_iff]
      have := elemOf_seen h hi ho lu
      rw [h.dim] at this
      show (if _ then (elemOf (l p) ((l p).cell i) (inverted lu g.dim (Kl p i))).F k else 0) = _
      rw [this]
      rfl
    · rw [if_neg ho, if_neg ho]

namespace BdmSplitWitness

/-- Two squares side by side, the right side of the first being the left of the second: cell `c` as seen
where the points have numbers larger by `shift` and the rows are numbered by `num`. -/
def cellOf (shift : Nat) (num : Equiv.Perm Nat) (owned : Bool) (c : Nat) : BCell where
  owned := owned
  ltog := fun r => num (if c = 0 then r else if r = 0 then 2 else if r = 4 then 6 else 9 + r)
  orient := fun r => if c = 1 ∧ (r = 0 ∨ r = 4) then -1 else 1
  emap := fun k => (if k % 2 = 0 then
      (if k / 2 % 2 = 0 then (if c = 0 then 10 else 11) else (if c = 0 then 11 else 14))
    else (if k / 4 = 0 then (if c = 0 then 12 else 15) else (if c = 0 then 13 else 16))) + (shift : Int)
  nq := 4
  pt := fun q => ⟨quadX q, 1, fun k => if k = 0 ∨ k = 3 then 1 else 0, 1, 3⟩
  nFaces := 4
  face := fun i => ⟨(if i = 0 then (if c = 0 then 10 else 11) else if i = 1 then (if c = 0 then 11 else 14)
      else if i = 2 then (if c = 0 then 12 else 15) else (if c = 0 then 13 else 16)) + shift,
    decide (¬(c = 0 ∧ i = 1) ∧ ¬(c = 1 ∧ i = 0)), fun d => if d = i / 2 then 1 else 0, if i % 2 = 0 then -1 else 1,
    1, fun _ => ⟨fun _ => 0, 1, 1, fun k => if k = 0 ∨ k = 3 then 1 else 0, 5, 2⟩⟩

/-- The whole mesh, with given pressures on the outer faces. -/
def whole : Bdm := ⟨2, 4, 2, cellOf 0 (Equiv.refl _) true, true, true⟩

/-- Rows are numbered differently on two processes. -/
def num : Equiv.Perm Nat := Equiv.swap 8 17

/-- Process `p` owns cell `p` and has it first; the other one is a ghost. -/
def cellAt (p a : Nat) : Nat := if a = 0 then p else 1 - p

def part (p : Nat) : Bdm :=
  ⟨2, 4, 2, fun a => cellOf (100*p + 7) num (decide (a = 0)) (cellAt p a), true, true⟩

theorem same (shift : Nat) (o : Bool) (c : Nat) :
    SameBCell whole num (whole.cell c) (cellOf shift num o c) where
  row := fun _ _ => rfl
  orient := rfl
  nq := rfl
  pt := rfl
  nFaces := rfl
  face := fun _ _ => ⟨rfl, rfl, rfl, rfl, rfl⟩
  refers := by
    intro i hi k hk
    have hi : i < 4 := hi
    have hk : k < 8 := hk
    show (Int.natAbs (_ + (shift : Int)) = _ + shift) ↔ (Int.natAbs (_ + ((0 : Nat) : Int)) = _ + 0)
    split_ifs <;> omega

theorem sees (p : Nat) (hp : p < 2) (K : ℝ) : SeesBdm whole (part p) (BdmWitness.perm K)
    (BdmWitness.perm K) (cellAt p) num where
  dim := rfl
  nv := rfl
  hasForcing := rfl
  hasPressure := rfl
  there := by
    intro a ha _
    show cellAt p a < 2
    unfold cellAt
    split <;> omega
  same := fun a _ _ => same _ _ _
  perm := fun _ _ _ => rfl

theorem once : OwnedOnce whole 2 part cellAt := by
  intro c hc
  refine ⟨c, hc, 0, by show 0 < 2; omega, rfl, rfl, ?_⟩
  intro p' hp' a' ha' ho he
  have : a' = 0 := by simpa [part, cellOf] using ho
  subst this
  exact ⟨he, rfl⟩

theorem located (c : Nat) (hc : c < 2) : Located whole (whole.cell c) := by
  intro f hf _
  have hf : f < 4 := hf
  show faceDirSide 2 4 _ _ ≠ none
  interval_cases c <;> interval_cases f <;> decide

end BdmSplitWitness

/-- The two squares with given pressures, split over two processes, meet the hypotheses. -/
example (lu : (Nat → ℝ) → Nat → ℝ) :
    (∀ c < BdmSplitWitness.whole.nCells, (BdmSplitWitness.whole.cell c).owned = true)
    ∧ (∃ sg, bdmComputeSystem lu BdmSplitWitness.whole (empty (BdmWitness.perm 2)) = .ok sg)
    ∧ (∀ p < 2, SeesBdm BdmSplitWitness.whole (BdmSplitWitness.part p) (BdmWitness.perm 2)
        (BdmWitness.perm 2) (BdmSplitWitness.cellAt p) BdmSplitWitness.num)
    ∧ OwnedOnce BdmSplitWitness.whole 2 BdmSplitWitness.part BdmSplitWitness.cellAt := by
  refine ⟨fun _ _ => rfl, ?_, fun p hp => BdmSplitWitness.sees p hp 2, BdmSplitWitness.once⟩
  obtain ⟨s, hs, _⟩ := run_ok lu BdmSplitWitness.whole (empty (BdmWitness.perm 2)) 2
    (fun i hi _ => BdmSplitWitness.located i hi)
  exact ⟨s, hs⟩

end

end TDy.Fe.Props
