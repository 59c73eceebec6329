import Verif.Spec.BdmConserve
import Verif.Props.BdmUnique

/-!
# C210: the BDM method conserves water

In every cell the water that leaves through the faces is what the source supplies; what leaves one cell
enters the other; and what leaves the mesh is what all sources supply.
-/

namespace TDy.Fe.Props

open TDy.Fe TDy.Fe.Spec TDy.Fe.Proofs Finset Matrix

noncomputable section

/-- The face with the pressure one. -/
def onesFace (f : BFace) : BFace := { f with pt := fun q => { f.pt q with g := 1 } }

open Classical in
/-- The flux through a face is the sum of its unknowns. -/
theorem faceFlux_eq (b : Bdm) (hb : Cells b) (c : BCell) (f : BFace) (dir side : Nat)
    (hf : FaceAt b c f dir side) (hside : side < 2) (hg : FaceGeometry b f dir side) (x : Nat → ℝ) :
    faceFlux b c f dir side x = ∑ r ∈ range (b.dim*b.nv),
      (c.orient r : ℝ)*x (c.ltog r)*(if OnSide b r dir side then 1 else 0) := by
  have h := face_uniform b hb c (onesFace f) dir side hf hside
    ⟨hg.dir_lt, hg.weights, hg.linear, hg.product, hg.regular, hg.normal⟩ 1 (fun _ _ => rfl) x
  rw [one_mul] at h
  rw [← h]
  unfold faceIntegral
  have hf' : faceDirSide b.dim b.nv c.emap (onesFace f).id = some (dir, side) := hf
  rw [hf']
  exact sum_congr rfl fun q _ => by
    show _ = 1*_*_
    rw [one_mul]
    rfl

/-- The balance of a cell is the equation of its pressure. -/
theorem outflow_source (lu : (Nat → ℝ) → Nat → ℝ) (b : Bdm) (perm : Nat → Nat → ℝ) (N : Nat)
    (hN : Numbered b N)
    (hK : ∀ i < b.nCells, (b.cell i).owned = true →
      (toMatrix b.dim (perm i)).det ≠ 0 ∧ (toMatrix b.dim (perm i)).IsSymm)
    (s : BState) (h : bdmComputeSystem lu b (empty perm) = .ok s) (x : Nat → ℝ)
    (hx : SolvesRows N s.K s.F x) (i : Nat) (hi : i < b.nCells) (ho : (b.cell i).owned = true) :
    outflow b (b.cell i) x = source b (b.cell i) := by
  set y := unit ((b.cell i).ltog (b.dim*b.nv)) with hy
  have hsys := C117_system_is_mixed_problem lu b perm hK N hN.below s h x y
  have heq : form b perm x y = load b y := by
    rw [← hsys.1, ← hsys.2]
    refine sum_congr rfl fun a ha => ?_
    rw [← hx a (mem_range.1 ha), mul_sum]
    exact sum_congr rfl fun a' _ => by ring
  have hv : ∀ j < b.nCells, (b.cell j).owned = true → ∀ r < b.dim*b.nv, y ((b.cell j).ltog r) = 0 :=
    fun j hj hoj r hr => if_neg fun he => by
      have := (hN.pressure i hi ho j hj hoj r (by omega) he).2
      omega
  have hp : ∀ j < b.nCells, (b.cell j).owned = true → pressure b (b.cell j) y = if j = i then 1 else 0 := by
    intro j hj hoj
    unfold pressure
    by_cases hji : j = i
    · rw [if_pos hji, hji]
      exact if_pos rfl
    · rw [if_neg hji]
      exact if_neg fun he => hji (hN.pressure i hi ho j hj hoj (b.dim*b.nv) (by omega) he).1
  have hvel : ∀ j < b.nCells, (b.cell j).owned = true → ∀ basis, velocity b (b.cell j) basis y = 0 := by
    intro j hj hoj basis
    funext k
    exact sum_eq_zero fun r hr => by rw [hv j hj hoj r (mem_range.1 hr)]; ring
  have h1 : form b perm x y = -outflow b (b.cell i) x := by
    unfold form
    rw [sum_eq_single i]
    · rw [if_pos ho, hp i hi ho, if_pos rfl]
      have he : energy b (b.cell i) (toMatrix b.dim (perm i)) x y = 0 :=
        sum_eq_zero fun q _ => by rw [hvel i hi ho, dotProduct_zero, zero_mul]
      have hout : outflow b (b.cell i) y = 0 :=
        sum_eq_zero fun r hr => by rw [hv i hi ho r (mem_range.1 hr), mul_zero]
      rw [he, hout]
      ring
    · intro j hj hji
      split
      · rename_i hoj
        have hj' := mem_range.1 hj
        rw [hp j hj' hoj, if_neg hji]
        have he : energy b (b.cell j) (toMatrix b.dim (perm j)) x y = 0 :=
          sum_eq_zero fun q _ => by rw [hvel j hj' hoj, dotProduct_zero, zero_mul]
        have hout : outflow b (b.cell j) y = 0 :=
          sum_eq_zero fun r hr => by rw [hv j hj' hoj r (mem_range.1 hr), mul_zero]
        rw [he, hout]
        ring
      · rfl
    · exact fun hn => absurd (mem_range.2 hi) hn
  have h2 : load b y = -source b (b.cell i) := by
    have hbd : ∀ j < b.nCells, (b.cell j).owned = true → boundaryIntegral b (b.cell j) y = 0 := by
      intro j hj hoj
      refine sum_eq_zero fun f _ => ?_
      split
      · unfold faceIntegral
        split
        · rfl
        · exact sum_eq_zero fun q _ => by rw [hvel j hj hoj, zero_dotProduct, mul_zero, zero_mul]
      · rfl
    unfold load
    rw [sum_eq_single i]
    · rw [if_pos ho, hp i hi ho, if_pos rfl, hbd i hi ho]
      ring
    · intro j hj hji
      split
      · rename_i hoj
        rw [hp j (mem_range.1 hj) hoj, if_neg hji, hbd j (mem_range.1 hj) hoj]
        ring
      · rfl
    · exact fun hn => absurd (mem_range.2 hi) hn
  rw [h1, h2, neg_inj] at heq
  exact heq

open Classical in
/-- Every unknown of a cell is on exactly one face. -/
theorem one_face (b : Bdm) (hb : Cells b) (c : BCell) (dir side : Nat → Nat) (h : CellFaces b c dir side) (r : Nat) :
    ∑ i ∈ range c.nFaces, (if OnSide b r (dir i) (side i) then (1 : ℝ) else 0) = 1 := by
  have hd : 0 < b.dim := by rcases hb with h | h <;> omega
  -- as many faces as places
  have himg : (range c.nFaces).image (fun i => (dir i, side i)) = range b.dim ×ˢ range 2 := by
    refine eq_of_subset_of_card_le ?_ ?_
    · intro p hp
      obtain ⟨i, hi, rfl⟩ := mem_image.1 hp
      exact mem_product.2 ⟨mem_range.2 (h.geometry i (mem_range.1 hi)).dir_lt,
        mem_range.2 (h.side_lt i (mem_range.1 hi))⟩
    · rw [card_image_of_injOn, card_product, card_range, card_range, card_range, h.count]
      · omega
      · intro i hi j hj he
        have he' := Prod.mk.inj he
        exact h.distinct i (mem_range.1 hi) j (mem_range.1 hj) he'.1 he'.2
  have hmem : (r % b.dim, (r / b.dim / 2^(r % b.dim)) % 2) ∈ (range c.nFaces).image (fun i => (dir i, side i)) := by
    rw [himg]
    exact mem_product.2 ⟨mem_range.2 (Nat.mod_lt _ hd), mem_range.2 (Nat.mod_lt _ two_pos)⟩
  obtain ⟨i, hi, he⟩ := mem_image.1 hmem
  have he' := Prod.mk.inj he
  rw [sum_eq_single i]
  · refine if_pos ⟨he'.1.symm, ?_⟩
    have e1 : dir i = r % b.dim := he'.1
    rw [e1]
    exact he'.2.symm
  · intro j hj hne
    refine if_neg fun hon => hne ?_
    have hon' := hon
    unfold OnSide at hon'
    refine h.distinct j (mem_range.1 hj) i (mem_range.1 hi) ?_ ?_
    · exact hon'.1.symm.trans he'.1.symm
    · have e1 : dir j = r % b.dim := hon'.1.symm
      have h2 := hon'.2
      rw [e1] at h2
      exact h2.symm.trans he'.2.symm
  · exact fun hn => absurd hi hn

/-- **C210** In every cell the water that leaves through its faces is what the source supplies. -/
theorem C210_cell_balance (lu : (Nat → ℝ) → Nat → ℝ) (b : Bdm) (hb : Cells b) (perm : Nat → Nat → ℝ)
    (N : Nat) (hN : Numbered b N)
    (hK : ∀ i < b.nCells, (b.cell i).owned = true →
      (toMatrix b.dim (perm i)).det ≠ 0 ∧ (toMatrix b.dim (perm i)).IsSymm)
    (s : BState) (h : bdmComputeSystem lu b (empty perm) = .ok s) (x : Nat → ℝ)
    (hx : SolvesRows N s.K s.F x) (i : Nat) (hi : i < b.nCells) (ho : (b.cell i).owned = true)
    (dir side : Nat → Nat) (hf : CellFaces b (b.cell i) dir side) :
    ∑ f ∈ range (b.cell i).nFaces, faceFlux b (b.cell i) ((b.cell i).face f) (dir f) (side f) x
      = source b (b.cell i) := by
  classical
  rw [← outflow_source lu b perm N hN hK s h x hx i hi ho]
  have h1 : ∀ f ∈ range (b.cell i).nFaces, faceFlux b (b.cell i) ((b.cell i).face f) (dir f) (side f) x
      = ∑ r ∈ range (b.dim*b.nv), ((b.cell i).orient r : ℝ)*x ((b.cell i).ltog r)
        *(if OnSide b r (dir f) (side f) then 1 else 0) := fun f hf' => by
    have := mem_range.1 hf'
    rw [faceFlux_eq b hb _ _ _ _ (hf.face_at f this) (hf.side_lt f this) (hf.geometry f this)]
  rw [sum_congr rfl h1, sum_comm]
  refine sum_congr rfl fun r _ => ?_
  rw [← mul_sum, one_face b hb (b.cell i) dir side hf r, mul_one]

/-- **C210** What leaves a cell through a face enters the cell on the other side, whatever the
coefficients are. -/
theorem C210_faces_cancel (b : Bdm) (hb : Cells b) (N : Nat) (hN : Numbered b N) (i j : Nat) (hij : i ≠ j)
    (hi : i < b.nCells) (ho : (b.cell i).owned = true) (hj : j < b.nCells) (hoj : (b.cell j).owned = true)
    (hdi : DistinctRows b (b.cell i)) (hdj : DistinctRows b (b.cell j)) (f g dir side dir' side' : Nat)
    (hf : FaceAt b (b.cell i) ((b.cell i).face f) dir side) (hs : side < 2)
    (hgf : FaceGeometry b ((b.cell i).face f) dir side)
    (hg : FaceAt b (b.cell j) ((b.cell j).face g) dir' side') (hs' : side' < 2)
    (hgg : FaceGeometry b ((b.cell j).face g) dir' side')
    (hsame : SameFace b (b.cell i) (b.cell j) dir side dir' side') (x : Nat → ℝ) :
    faceFlux b (b.cell j) ((b.cell j).face g) dir' side' x
      = -faceFlux b (b.cell i) ((b.cell i).face f) dir side x := by
  classical
  rw [faceFlux_eq b hb _ _ _ _ hf hs hgf, faceFlux_eq b hb _ _ _ _ hg hs' hgg, ← sum_neg_distrib]
  simp only [mul_ite, mul_one, mul_zero]
  have hneg : ∀ r, -(if OnSide b r dir side then ((b.cell i).orient r : ℝ)*x ((b.cell i).ltog r) else 0)
      = if OnSide b r dir side then -(((b.cell i).orient r : ℝ)*x ((b.cell i).ltog r)) else 0 := by
    intro r
    split
    · rfl
    · exact neg_zero
  simp only [hneg]
  rw [← sum_filter, ← sum_filter]
  -- the unknown on the other side
  let m : Nat → Nat := fun r' => if h : ∃ r < b.dim*b.nv, OnSide b r dir side ∧ (b.cell i).ltog r = (b.cell j).ltog r'
    then h.choose else 0
  have hm : ∀ r' < b.dim*b.nv, OnSide b r' dir' side' →
      m r' < b.dim*b.nv ∧ OnSide b (m r') dir side ∧ (b.cell i).ltog (m r') = (b.cell j).ltog r' := by
    intro r' hr' hon
    have hex := hsame.2 r' hr' hon
    have : m r' = hex.choose := dif_pos hex
    rw [this]
    exact hex.choose_spec
  refine sum_nbij m ?_ ?_ ?_ ?_
  · intro r' hr'
    obtain ⟨h1, h2⟩ := mem_filter.1 hr'
    obtain ⟨h3, h4, _⟩ := hm r' (mem_range.1 h1) h2
    exact mem_filter.2 ⟨mem_range.2 h3, h4⟩
  · intro r1 hr1 r2 hr2 he
    obtain ⟨h1, h2⟩ := mem_filter.1 (mem_coe.1 hr1)
    obtain ⟨h3, h4⟩ := mem_filter.1 (mem_coe.1 hr2)
    have e1 := (hm r1 (mem_range.1 h1) h2).2.2
    have e2 := (hm r2 (mem_range.1 h3) h4).2.2
    have he' : m r1 = m r2 := he
    rw [he', e2] at e1
    exact hdj r1 (mem_range.1 h1) r2 (mem_range.1 h3) e1.symm
  · intro r hr
    obtain ⟨h1, h2⟩ := mem_filter.1 (mem_coe.1 hr)
    obtain ⟨r', hr', hon, he⟩ := hsame.1 r (mem_range.1 h1) h2
    obtain ⟨h3, _, h5⟩ := hm r' hr' hon
    exact ⟨r', mem_coe.2 (mem_filter.2 ⟨mem_range.2 hr', hon⟩),
      hdi _ h3 _ (mem_range.1 h1) (h5.trans he)⟩
  · intro r' hr'
    obtain ⟨h1, h2⟩ := mem_filter.1 hr'
    obtain ⟨h3, h4, h5⟩ := hm r' (mem_range.1 h1) h2
    have hop := hN.opposite (i, m r') (j, r') ⟨hi, ho, h3⟩ ⟨hj, hoj, mem_range.1 h1⟩
      (fun he => hij (congrArg Prod.fst he)) h5
    unfold signOf at hop
    dsimp only at hop
    rw [hop, h5]
    push_cast
    ring

/-- The mesh with the pressure one at its boundary. -/
def onesMesh (b : Bdm) : Bdm :=
  { b with cell := fun c => { b.cell c with face := fun i => onesFace ((b.cell c).face i) } }

/-- **C210** What leaves the mesh through its boundary is what the sources of all cells supply. -/
theorem C210_total_balance (lu : (Nat → ℝ) → Nat → ℝ) (b : Bdm) (hb : Cells b) (perm : Nat → Nat → ℝ)
    (N : Nat) (hN : Numbered b N)
    (hK : ∀ i < b.nCells, (b.cell i).owned = true →
      (toMatrix b.dim (perm i)).det ≠ 0 ∧ (toMatrix b.dim (perm i)).IsSymm)
    (other : Nat × Nat → Nat × Nat) (hc : Closed b other) (dir side : Nat → Nat → Nat)
    (hg : ∀ i < b.nCells, (b.cell i).owned = true → ∀ f < (b.cell i).nFaces,
      ((b.cell i).face f).isbc = true → b.hasPressure = true →
      FaceAt b (b.cell i) ((b.cell i).face f) (dir i f) (side i f) ∧ side i f < 2
        ∧ FaceGeometry b ((b.cell i).face f) (dir i f) (side i f))
    (s : BState) (h : bdmComputeSystem lu b (empty perm) = .ok s) (x : Nat → ℝ)
    (hx : SolvesRows N s.K s.F x) :
    (∑ i ∈ range b.nCells, if (b.cell i).owned then ∑ f ∈ range (b.cell i).nFaces,
      if ((b.cell i).face f).isbc && b.hasPressure then
        faceFlux b (b.cell i) ((b.cell i).face f) (dir i f) (side i f) x else 0 else 0)
      = ∑ i ∈ range b.nCells, if (b.cell i).owned then source b (b.cell i) else 0 := by
  have h1 : ∀ i ∈ range b.nCells, (if (b.cell i).owned then source b (b.cell i) else 0)
      = if (b.cell i).owned then 1*outflow b (b.cell i) x else 0 := by
    intro i hi
    split
    · rename_i ho
      rw [one_mul, outflow_source lu b perm N hN hK s h x hx i (mem_range.1 hi) ho]
    · rfl
  rw [sum_congr rfl h1]
  have h2 := total_outflow (onesMesh b) hb other
    ⟨hc.once, hc.other_unknown, hc.other_ne, hc.other_other, hc.other_row⟩ 1 (by
      intro i hi ho f hf hbc hp
      obtain ⟨h3, h4, h5⟩ := hg i hi ho f hf hbc hp
      exact ⟨⟨dir i f, side i f, h3, h4, ⟨h5.dir_lt, h5.weights, h5.linear, h5.product, h5.regular, h5.normal⟩⟩,
        fun _ _ => rfl⟩) x
  refine Eq.trans ?_ h2.symm
  refine sum_congr rfl fun i hi => ?_
  show _ = if (b.cell i).owned then boundaryIntegral (onesMesh b) ((onesMesh b).cell i) x else 0
  split
  · rename_i ho
    refine sum_congr rfl fun f hf => ?_
    show _ = if ((b.cell i).face f).isbc && b.hasPressure then
      faceIntegral (onesMesh b) ((onesMesh b).cell i) (onesFace ((b.cell i).face f)) x else 0
    split
    · rename_i hbc
      rw [Bool.and_eq_true] at hbc
      obtain ⟨h3, _, _⟩ := hg i (mem_range.1 hi) ho f (mem_range.1 hf) hbc.1 hbc.2
      have hf' : faceDirSide (onesMesh b).dim (onesMesh b).nv ((onesMesh b).cell i).emap
        (onesFace ((b.cell i).face f)).id = some (dir i f, side i f) := h3
      unfold faceIntegral
      rw [hf']
      exact sum_congr rfl fun q _ => by
        show _ = 1*_*_
        rw [one_mul]
        rfl
    · rfl
  · rfl

/-! ### Two squares -/

namespace ConserveWitness

open RestWitness (two faceId)

/-- The two squares with a source. -/
def sourced : Bdm :=
  { two with
    hasForcing := true
    cell := fun c => { two.cell c with pt := fun q => { (two.cell c).pt q with force := 7 } } }

theorem numbered : Numbered sourced 16 where
  below := OneSolutionWitness.numbered.below
  all := OneSolutionWitness.numbered.all
  pressure := OneSolutionWitness.numbered.pressure
  directed := OneSolutionWitness.numbered.directed
  opposite := OneSolutionWitness.numbered.opposite
  two := OneSolutionWitness.numbered.two

theorem closed : Closed sourced RestWitness.other where
  once := RestWitness.closed.once
  other_unknown := RestWitness.closed.other_unknown
  other_ne := RestWitness.closed.other_ne
  other_other := RestWitness.closed.other_other
  other_row := RestWitness.closed.other_row

theorem geometry (c i : Nat) (hi : i < 4) : FaceGeometry sourced ((sourced.cell c).face i) (i / 2) (i % 2) :=
  have h := RestWitness.geometry c i hi
  ⟨h.dir_lt, h.weights, h.linear, h.product, h.regular, h.normal⟩

theorem faces (c : Nat) (hc : c < 2) : CellFaces sourced (sourced.cell c) (fun i => i / 2) (fun i => i % 2) where
  count := rfl
  face_at := fun i hi => RestWitness.faceAt c i hc hi
  side_lt := fun i _ => Nat.mod_lt _ two_pos
  geometry := fun i hi => geometry c i hi
  distinct := fun i _ j _ h1 h2 => by omega

theorem symmetric (i : Nat) : (toMatrix 2 (BdmWitness.perm 3 i)).det ≠ 0 ∧ (toMatrix 2 (BdmWitness.perm 3 i)).IsSymm :=
  ⟨BdmWitness.perm_det 3 (by norm_num) i, BdmWitness.perm_symm 3 i⟩

/-- The source supplies 7 per unit of area, 28 in a cell. -/
theorem source_eq (i : Nat) : source sourced (sourced.cell i) = 28 := by
  show (∑ q ∈ range 4, (7 : ℝ)*(1*1)) = 28
  norm_num

/-- **C210 non-vacuity.**  There is a solution; 28 leaves each of the two cells and 56 the mesh; and the
two cells exchange water through the right side of the first and the left side of the second. -/
example (lu : (Nat → ℝ) → Nat → ℝ) :
    ∃ s, bdmComputeSystem lu sourced (empty (BdmWitness.perm 3)) = .ok s ∧ (∃ x, SolvesRows 16 s.K s.F x)
      ∧ ∀ x, SolvesRows 16 s.K s.F x →
        (∑ f ∈ range 4, faceFlux sourced (sourced.cell 0) ((sourced.cell 0).face f) (f / 2) (f % 2) x) = 28
        ∧ (∑ i ∈ range 2, if (sourced.cell i).owned then ∑ f ∈ range 4,
          if ((sourced.cell i).face f).isbc && sourced.hasPressure then
            faceFlux sourced (sourced.cell i) ((sourced.cell i).face f) (f / 2) (f % 2) x else 0 else 0) = 56
        ∧ faceFlux sourced (sourced.cell 1) ((sourced.cell 1).face 0) 0 0 x
          = -faceFlux sourced (sourced.cell 0) ((sourced.cell 0).face 1) 0 1 x := by
  obtain ⟨s, hs, _⟩ := run_ok lu sourced (empty (BdmWitness.perm 3)) sourced.nCells
    (fun i hi _ => RestWitness.located i hi)
  refine ⟨s, hs, ?_, fun x hx => ⟨?_, ?_, ?_⟩⟩
  · refine (C185_exactly_one_solution lu sourced (.inl ⟨rfl, rfl⟩) (BdmWitness.perm 3) 16 numbered ?_
      (fun i _ _ => ⟨OneSolutionWitness.rule _ rfl fun _ => rfl, OneSolutionWitness.regular i⟩)
      (fun i hi _ => ⟨i, Relation.ReflTransGen.refl, OneSolutionWitness.own i hi⟩) s hs s.F).1
    intro i _ _
    show (toMatrix 2 (BdmWitness.perm 3 i)).PosDef
    rw [BdmWitness.perm_matrix]
    exact Matrix.PosDef.one.smul (by norm_num)
  · rw [← source_eq 0]
    exact C210_cell_balance lu sourced (.inl ⟨rfl, rfl⟩) (BdmWitness.perm 3) 16 numbered
      (fun i _ _ => symmetric i) s hs x hx 0 (by decide) rfl _ _ (faces 0 (by decide))
  · refine Eq.trans (C210_total_balance lu sourced (.inl ⟨rfl, rfl⟩) (BdmWitness.perm 3) 16 numbered
      (fun i _ _ => symmetric i) RestWitness.other closed (fun _ f => f / 2) (fun _ f => f % 2)
      (fun i hi _ f hf _ _ => ⟨RestWitness.faceAt i f hi hf, Nat.mod_lt _ two_pos, geometry i f hf⟩) s hs x hx) ?_
    show (∑ i ∈ range 2, if true = true then source sourced (sourced.cell i) else 0) = 56
    simp only [if_true, source_eq]
    norm_num
  · have hd : ∀ c < 2, ∀ r < 8, ∀ r' < 8, (two.cell c).ltog r = (two.cell c).ltog r' → r = r' := by decide +kernel
    have hm : ∀ r < 8, (r % 2 = 0 ∧ (r / 2 / 2^0) % 2 = 1) → ∃ r' < 8, (r' % 2 = 0 ∧ (r' / 2 / 2^0) % 2 = 0)
        ∧ (two.cell 1).ltog r' = (two.cell 0).ltog r := by decide +kernel
    have hm' : ∀ r < 8, (r % 2 = 0 ∧ (r / 2 / 2^0) % 2 = 0) → ∃ r' < 8, (r' % 2 = 0 ∧ (r' / 2 / 2^0) % 2 = 1)
        ∧ (two.cell 0).ltog r' = (two.cell 1).ltog r := by decide +kernel
    exact C210_faces_cancel sourced (.inl ⟨rfl, rfl⟩) 16 numbered 0 1 (by decide) (by decide) rfl (by decide) rfl
      (hd 0 (by decide)) (hd 1 (by decide)) 1 0 0 1 0 0 (RestWitness.faceAt 0 1 (by decide) (by decide)) (by decide)
      (geometry 0 1 (by decide)) (RestWitness.faceAt 1 0 (by decide) (by decide)) (by decide)
      (geometry 1 0 (by decide)) ⟨hm, hm'⟩ x

end ConserveWitness

end

end TDy.Fe.Props
