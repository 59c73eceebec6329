import Verif.Props.BdmLinear

/-!
# C209: the hypotheses are met

The squares `[-1,1]^2` and `[1,3]x[-1,1]` with the permeability 3 and the pressure `1 + 2 x + 3 y`, with
the three Gauss points of every direction and with the corners.
-/

namespace TDy.Fe.Props

open TDy.Fe TDy.Fe.Spec TDy.Fe.Proofs Finset Matrix

noncomputable section

namespace LinearWitness

open RestWitness (two faceId)

/-- The Gauss points on `[-1,1]` and their weights. -/
def node (q : Nat) : ℝ := if q = 0 then -√(3/5) else if q = 1 then 0 else √(3/5)
def weight (q : Nat) : ℝ := if q = 1 then 8/9 else 5/9

/-- The maps of the two cells. -/
def maps (i : Nat) : ElementMap := ⟨fun k => if k = 0 then 2*i else 0, fun k => if k = 0 ∨ k = 3 then 1 else 0, 1⟩

def slope : Fin 2 → ℝ := ![2, 3]

/-- The mesh, with a quadrature of the cells. -/
def mesh (nq : Nat) (w : Nat → ℝ) (x : Nat → Nat → ℝ) : Bdm :=
  { two with
    cell := fun c => { two.cell c with
      nq := nq
      pt := fun q => ⟨x q, w q, fun k => if k = 0 ∨ k = 3 then 1 else 0, 1, 0⟩
      face := fun i => { (two.cell c).face i with
        nq := 3
        pt := fun q => ⟨fun _ => node q, weight q, 1, fun k => if k = 0 ∨ k = 3 then 1 else 0, 1,
          linearPressure 1 slope ((maps c).place 2 (singlePoint (i / 2) (i % 2) fun _ => node q))⟩ } } }

def full : Bdm := mesh 9 (fun q => weight (q % 3)*weight (q / 3)) (fun q d => if d = 0 then node (q % 3) else node (q / 3))
def lumped : Bdm := mesh 4 (fun _ => 1) quadX

variable (nq : Nat) (w : Nat → ℝ) (x : Nat → Nat → ℝ)

theorem unknown (u : Nat × Nat) : Unknown (mesh nq w x) u ↔ u.1 < 2 ∧ u.2 < 8 :=
  ⟨fun h => ⟨h.1, h.2.2⟩, fun h => ⟨h.1, rfl, h.2⟩⟩

theorem numbered : Numbered (mesh nq w x) 16 where
  below := OneSolutionWitness.numbered.below
  all := OneSolutionWitness.numbered.all
  pressure := OneSolutionWitness.numbered.pressure
  directed := OneSolutionWitness.numbered.directed
  opposite := OneSolutionWitness.numbered.opposite
  two := OneSolutionWitness.numbered.two

theorem closed : Closed (mesh nq w x) RestWitness.other where
  once := RestWitness.closed.once
  other_unknown := RestWitness.closed.other_unknown
  other_ne := RestWitness.closed.other_ne
  other_other := RestWitness.closed.other_other
  other_row := RestWitness.closed.other_row

theorem located (c : Nat) (hc : c < 2) : Located (mesh nq w x) ((mesh nq w x).cell c) :=
  RestWitness.located c hc

theorem reaches : ReachesBoundary (mesh nq w x) :=
  fun i hi _ => ⟨i, Relation.ReflTransGen.refl, OneSolutionWitness.own i hi⟩

theorem identity : toMatrix 2 (fun k => if k = 0 ∨ k = 3 then (1 : ℝ) else 0) = 1 := by
  have := BdmWitness.perm_matrix 1 0
  rw [one_smul] at this
  exact this

theorem affine (i : Nat) : AffineCell (mesh nq w x) ((mesh nq w x).cell i) (maps i) where
  det := by
    show (toMatrix 2 (fun k => if k = 0 ∨ k = 3 then (1 : ℝ) else 0)).det = 1
    rw [identity, det_one]
  pos := one_pos
  matrix := fun _ _ _ _ => rfl
  jacobian := fun _ _ => rfl

theorem pairs (u v : Nat × Nat) (hu : Unknown (mesh nq w x) u) (hv : Unknown (mesh nq w x) v) (hne : u ≠ v)
    (he : rowOf (mesh nq w x) u = rowOf (mesh nq w x) v) :
    (u, v) ∈ [((0, 2), (1, 0)), ((0, 6), (1, 4)), ((1, 0), (0, 2)), ((1, 4), (0, 6))] := by
  have : ∀ (i : Fin 2) (r : Fin 8) (j : Fin 2) (r' : Fin 8), (i, r) ≠ (j, r') →
      (two.cell i).ltog r = (two.cell j).ltog r' →
      (((i : Nat), (r : Nat)), ((j : Nat), (r' : Nat)))
        ∈ [((0, 2), (1, 0)), ((0, 6), (1, 4)), ((1, 0), (0, 2)), ((1, 4), (0, 6))] := by
    decide +kernel
  obtain ⟨i, r⟩ := u
  obtain ⟨j, r'⟩ := v
  rw [unknown] at hu hv
  exact this ⟨i, hu.1⟩ ⟨r, hu.2⟩ ⟨j, hv.1⟩ ⟨r', hv.2⟩ (fun h => hne (by simpa using h)) he

theorem conforming : Conforming (mesh nq w x) maps where
  corner := by
    intro u v hu hv hne he k hk
    have hk' : k < 2 := hk
    show (maps u.1).place 2 (cornerOf 2 u.2) k = (maps v.1).place 2 (cornerOf 2 v.2) k
    have := pairs nq w x u v hu hv hne he
    simp only [List.mem_cons, Prod.mk.injEq, List.not_mem_nil, or_false] at this
    rcases this with ⟨rfl, rfl⟩ | ⟨rfl, rfl⟩ | ⟨rfl, rfl⟩ | ⟨rfl, rfl⟩ <;> interval_cases k <;>
      simp only [ElementMap.place, maps, cornerOf, quadX, sum_range_succ, sum_range_zero] <;> norm_num
  centre := by
    intro u v hu hv hne he k hk
    have hk' : k < 2 := hk
    show (maps u.1).place 2 (faceCentreOf 2 u.2) k = (maps v.1).place 2 (faceCentreOf 2 v.2) k
    have := pairs nq w x u v hu hv hne he
    simp only [List.mem_cons, Prod.mk.injEq, List.not_mem_nil, or_false] at this
    rcases this with ⟨rfl, rfl⟩ | ⟨rfl, rfl⟩ | ⟨rfl, rfl⟩ | ⟨rfl, rfl⟩ <;> interval_cases k <;>
      simp only [ElementMap.place, maps, faceCentreOf, quadX, sum_range_succ, sum_range_zero] <;> norm_num
  area := by
    intro u v hu hv hne he
    have hm : (maps v.1).D = (maps u.1).D := rfl
    have hq : quadX (v.2 / 2) (v.2 % 2) = -quadX (u.2 / 2) (u.2 % 2) ∧ v.2 % 2 = u.2 % 2 := by
      have := pairs nq w x u v hu hv hne he
      simp only [List.mem_cons, Prod.mk.injEq, List.not_mem_nil, or_false] at this
      rcases this with ⟨rfl, rfl⟩ | ⟨rfl, rfl⟩ | ⟨rfl, rfl⟩ | ⟨rfl, rfl⟩ <;> norm_num [quadX]
    funext k
    show quadX (v.2 / 2) (v.2 % 2)*1*ofMatrix (toMatrix 2 (maps v.1).D)⁻¹ ((v.2 % 2)*2 + k)
      = -(quadX (u.2 / 2) (u.2 % 2)*1*ofMatrix (toMatrix 2 (maps u.1).D)⁻¹ ((u.2 % 2)*2 + k))
    rw [hm, hq.1, hq.2]
    ring
  orient := by
    intro u _
    show (if (u.2 / 2 / 2^(u.2 % 2)) % 2 = 0 then (-1 : Int) else 1) = 1
      ∨ (if (u.2 / 2 / 2^(u.2 % 2)) % 2 = 0 then (-1 : Int) else 1) = -1
    split
    · exact .inr rfl
    · exact .inl rfl

/-- The three Gauss points integrate what they must. -/
theorem gauss (e : Nat) (he : e ≤ 2) : ∑ q ∈ range 3, weight q*node q^e = ∫ t in (-1 : ℝ)..1, t^e := by
  have h : √(3/5 : ℝ)^2 = 3/5 := Real.sq_sqrt (by norm_num)
  generalize hr : √(3/5 : ℝ) = a at h
  interval_cases e <;> rw [integral_pow] <;> simp only [sum_range_succ, sum_range_zero, weight, node, hr] <;>
    norm_num [h]

theorem boundary : LinearBoundary (mesh nq w x) maps 1 slope := by
  intro i hi _ f hf _ _
  have hi' : i < 2 := hi
  have hf' : f < 4 := hf
  refine ⟨f / 2, f % 2, RestWitness.faceAt i f hi' hf', ⟨?_, Nat.mod_lt _ two_pos, ?_, fun _ _ _ _ => rfl,
    fun _ _ => rfl, ?_⟩, fun _ _ => rfl⟩
  · show f / 2 < 2
    omega
  · intro e he
    have he0 := he 0 (show 0 < 2 - 1 by decide)
    show ∑ q ∈ range 3, weight q*∏ d ∈ range 1, node q^e d = ∏ d ∈ range 1, ∫ t in (-1 : ℝ)..1, t^e d
    simp only [prod_range_one]
    exact gauss _ he0
  · intro q hq j hj
    have hj' : j < 2 := hj
    show ∑ k ∈ range 2, (if k*2 + j = 0 ∨ k*2 + j = 3 then (1 : ℝ) else 0)
      *((if (if f % 2 = 0 then (-1 : ℝ) else 1) < 0 then -1 else 1)*(if k = f / 2 then 1 else 0))*1
      = 1*(if j = f / 2 then (if f % 2 = 0 then -1 else 1) else 0)
    interval_cases f <;> interval_cases j <;> norm_num [sum_range_succ]

theorem darcy (i : Nat) : toMatrix 2 (BdmWitness.perm 3 i) *ᵥ slope = -![-6, -9] := by
  rw [BdmWitness.perm_matrix, smul_mulVec, one_mulVec]
  funext k
  fin_cases k <;> norm_num [slope]

theorem positive (i : Nat) : (toMatrix 2 (BdmWitness.perm 3 i)).PosDef := by
  rw [BdmWitness.perm_matrix]
  exact Matrix.PosDef.one.smul (by norm_num)

theorem rule (i : Nat) : FullRule full (full.cell i) := by
  refine ⟨?_, .inl ⟨{-√(3/5), 0, √(3/5)}, ?_, ?_⟩, ?_⟩
  · intro e he
    have he0 := he 0 (show 0 < 2 by decide)
    have he1 := he 1 (show 1 < 2 by decide)
    show ∑ q ∈ range 9, weight (q % 3)*weight (q / 3)
      *∏ d ∈ range 2, (if d = 0 then node (q % 3) else node (q / 3))^e d
      = ∏ d ∈ range 2, ∫ t in (-1 : ℝ)..1, t^e d
    simp only [prod_range_succ, prod_range_zero, one_mul, if_true, one_ne_zero, if_false]
    rw [← gauss _ he0, ← gauss _ he1]
    simp only [sum_range_succ, sum_range_zero]
    norm_num
    ring
  · have h : (0 : ℝ) < √(3/5) := Real.sqrt_pos.2 (by norm_num)
    rw [card_insert_of_notMem, card_insert_of_notMem, card_singleton]
    · simpa using h.ne
    · simp only [mem_insert, mem_singleton, not_or]
      constructor <;> intro h' <;> linarith
  · intro t ht
    have key : ∀ d < 2, ∃ q < 3, node q = t d := by
      intro d hd
      have := ht d hd
      simp only [mem_insert, mem_singleton] at this
      rcases this with h | h | h
      · exact ⟨0, by decide, by rw [h]; simp [node]⟩
      · exact ⟨1, by decide, by rw [h]; simp [node]⟩
      · exact ⟨2, by decide, by rw [h]; simp [node]⟩
    obtain ⟨p, hp, h0⟩ := key 0 (by decide)
    obtain ⟨q, hq, h1⟩ := key 1 (by decide)
    refine ⟨p + 3*q, show p + 3*q < 9 by omega, fun d hd => ?_⟩
    have hd' : d < 2 := hd
    show (if d = 0 then node ((p + 3*q) % 3) else node ((p + 3*q) / 3)) = t d
    have e1 : (p + 3*q) % 3 = p := by omega
    have e2 : (p + 3*q) / 3 = q := by omega
    interval_cases d
    · rw [if_pos rfl, e1, h0]
    · rw [if_neg one_ne_zero, e2, h1]
  · intro q _
    show 0 < weight (q % 3)*weight (q / 3)
    have : ∀ q, 0 < weight q := fun q => by unfold weight; split <;> norm_num
    exact mul_pos (this _) (this _)

theorem runs (lu : (Nat → ℝ) → Nat → ℝ) :
    ∃ s, bdmComputeSystem lu (mesh nq w x) (empty (BdmWitness.perm 3)) = .ok s := by
  obtain ⟨s, hs, _⟩ := run_ok lu (mesh nq w x) (empty (BdmWitness.perm 3)) (mesh nq w x).nCells
    (fun i hi _ => located nq w x i hi)
  exact ⟨s, hs⟩

/-- **C209 non-vacuity.**  With `FULL` there is a solution, and the pressures of the two cells are those
of `1 + 2 x + 3 y` at `(0,0)` and `(2,0)`. -/
example (lu : (Nat → ℝ) → Nat → ℝ) :
    ∃ s, bdmComputeSystem lu full (empty (BdmWitness.perm 3)) = .ok s ∧ (∃ x, SolvesRows 16 s.K s.F x)
      ∧ ∀ x, SolvesRows 16 s.K s.F x → pressure full (full.cell 0) x = 1 ∧ pressure full (full.cell 1) x = 5 := by
  obtain ⟨s, hs⟩ := runs _ _ _ lu
  refine ⟨s, hs, ?_, fun x hx => ?_⟩
  · refine (C185_exactly_one_solution lu full (.inl ⟨rfl, rfl⟩) (BdmWitness.perm 3) 16 (numbered _ _ _)
      (fun i _ _ => positive i) (fun i _ _ => ⟨(rule i).2.1, fun q hq => ⟨(rule i).2.2 q hq, one_pos, ?_⟩⟩)
      (reaches _ _ _) s hs s.F).1
    exact BdmWitness.perm_det 1 one_ne_zero 0
  · have h := C209_linear_pressure_is_exact_partial lu full (.inl ⟨rfl, rfl⟩) (BdmWitness.perm 3) 16
      (numbered _ _ _) (fun i _ _ => positive i) (reaches _ _ _) _ (closed _ _ _) maps
      (fun i _ _ => ⟨affine _ _ _ i, rule i⟩) (conforming _ _ _) 1 slope ![-6, -9] (fun i _ _ => darcy i)
      (boundary _ _ _) (fun h => absurd h (by decide)) s hs x hx
    have h0 := (h 0 (by decide) rfl).1
    have h1 := (h 1 (by decide) rfl).1
    rw [h0, h1]
    constructor
    · show (1 : ℝ) + ∑ k : Fin 2, slope k*(if (k : Nat) = 0 then 2*((0 : Nat) : ℝ) else 0) = 1
      norm_num [Fin.sum_univ_two, slope]
    · show (1 : ℝ) + ∑ k : Fin 2, slope k*(if (k : Nat) = 0 then 2*((1 : Nat) : ℝ) else 0) = 5
      norm_num [Fin.sum_univ_two, slope]

/-- **C209 non-vacuity.**  With `LUMPED` there is a solution, and it is not the linear pressure: the
corner `(-1,-1)` of the bottom of the first cell has another pressure than the centre `(0,-1)`. -/
example (lu : (Nat → ℝ) → Nat → ℝ) :
    ∃ s, bdmComputeSystem lu lumped (empty (BdmWitness.perm 3)) = .ok s ∧ (∃ x, SolvesRows 16 s.K s.F x)
      ∧ ∀ x, SolvesRows 16 s.K s.F x → ¬ ∀ i < lumped.nCells, (lumped.cell i).owned = true →
        pressure lumped (lumped.cell i) x = linearPressure 1 slope (maps i).centre
        ∧ ∀ ξ : Nat → ℝ, velocity lumped (lumped.cell i) (hdivBasis lumped.dim ξ (maps i).D (maps i).J) x
          = ![-6, -9] := by
  obtain ⟨s, hs⟩ := runs _ _ _ lu
  have hl : ∀ i, LumpedRule lumped (lumped.cell i) := fun i => ⟨rfl, fun q _ => ⟨rfl, rfl⟩⟩
  refine ⟨s, hs, ?_, fun x hx => ?_⟩
  · refine (C185_exactly_one_solution lu lumped (.inl ⟨rfl, rfl⟩) (BdmWitness.perm 3) 16 (numbered _ _ _)
      (fun i _ _ => positive i) (fun i _ _ => ⟨lumped_grid _ (.inl ⟨rfl, rfl⟩) _ (hl i),
        fun q hq => ⟨one_pos, one_pos, ?_⟩⟩)
      (reaches _ _ _) s hs s.F).1
    exact BdmWitness.perm_det 1 one_ne_zero 0
  · refine C209_lumped_violated lu lumped (.inl ⟨rfl, rfl⟩) (BdmWitness.perm 3) 16
      (numbered _ _ _) (fun i _ _ => positive i) _ (closed _ _ _) maps
      (fun i _ _ => ⟨affine _ _ _ i, hl i⟩) (conforming _ _ _) 1 slope ![-6, -9] (fun i _ _ => darcy i)
      (boundary _ _ _) (fun h => absurd h (by decide)) (0, 1) ((unknown _ _ _ _).2 (by decide)) ?_ ?_ s hs x hx
    · intro v hv he
      by_contra hne
      have := pairs _ _ _ v (0, 1) hv ((unknown _ _ _ _).2 (by decide)) hne he
      simp at this
    · show (1 : ℝ) + ∑ k : Fin 2, slope k*((if (k : Nat) = 0 then 2*((0 : Nat) : ℝ) else 0)
          + ∑ j ∈ range 2, (if (k : Nat)*2 + j = 0 ∨ (k : Nat)*2 + j = 3 then (1 : ℝ) else 0)*quadX 0 j)
        ≠ 1 + ∑ k : Fin 2, slope k*((if (k : Nat) = 0 then 2*((0 : Nat) : ℝ) else 0)
          + ∑ j ∈ range 2, (if (k : Nat)*2 + j = 0 ∨ (k : Nat)*2 + j = 3 then (1 : ℝ) else 0)
            *(if j = 1 then quadX 0 j else 0))
      simp only [Fin.sum_univ_two, sum_range_succ, sum_range_zero, slope, quadX]
      norm_num

end LinearWitness

end

end TDy.Fe.Props
