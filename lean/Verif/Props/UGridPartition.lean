import Verif.Spec.UGridPartition
import Verif.Props.UGridOrder
import Mathlib.Data.Finset.Card
import Mathlib.Algebra.BigOperators.Group.Finset.Basic
import Mathlib.Data.Fintype.Card
import Mathlib.Algebra.Order.BigOperators.Group.Finset

/-!
# Importing a mesh: whatever the partitioner answers, every rank gets the cells given to it
-/

namespace TDy.UGrid.Props

open TDy.UGrid.Spec TDy.UGrid.Proofs

theorem partitioningCount_succ (n : Nat) (rankOf : Nat → Nat) (r : Nat) :
    partitioningCount (n + 1) rankOf r
      = partitioningCount n rankOf r + if rankOf n = r then 1 else 0 := by
  unfold partitioningCount
  rw [forN]
  split <;> simp

theorem partitioningCount_mono (rankOf : Nat → Nat) (r : Nat) : Monotone fun n => partitioningCount n rankOf r :=
  monotone_nat_of_le_succ (fun n => by
    change _ ≤ partitioningCount (n + 1) rankOf r
    rw [partitioningCount_succ]; omega)

/-- Cells given to ranks before `r`. -/
noncomputable def before (n : Nat) (rankOf : Nat → Nat) (r : Nat) : Nat :=
  forN r (fun q k => k + partitioningCount n rankOf q) 0

theorem before_succ (n : Nat) (rankOf : Nat → Nat) (r : Nat) :
    before n rankOf (r + 1) = before n rankOf r + partitioningCount n rankOf r := rfl

theorem before_mono (n : Nat) (rankOf : Nat → Nat) : Monotone (before n rankOf) :=
  monotone_nat_of_le_succ (fun r => by rw [before_succ]; omega)

theorem before_cells (n : Nat) (rankOf : Nat → Nat) (r : Nat) :
    before (n + 1) rankOf r = before n rankOf r + if rankOf n < r then 1 else 0 := by
  induction r with
  | zero => rfl
  | succ r ih =>
    rw [before_succ, before_succ, ih, partitioningCount_succ]
    by_cases h1 : rankOf n < r
    · rw [if_pos h1, if_neg (by omega), if_pos (by omega)]; omega
    · by_cases h2 : rankOf n = r
      · rw [if_neg h1, if_pos h2, if_pos (by omega)]; omega
      · rw [if_neg h1, if_neg h2, if_neg (by omega)]; omega

theorem before_all (n : Nat) (rankOf : Nat → Nat) (ranks : Nat) (h : ∀ c < n, rankOf c < ranks) :
    before n rankOf ranks = n := by
  induction n with
  | zero =>
    suffices ∀ r, before 0 rankOf r = 0 from this _
    intro r
    induction r with
    | zero => rfl
    | succ r ih => rw [before_succ, ih]; rfl
  | succ n ih =>
    rw [before_cells, ih (fun c hc => h c (by omega)), if_pos (h n (by omega))]

theorem newGlobalOffset_eq (n : Nat) (rankOf : Nat → Nat) (r : Nat) :
    newGlobalOffset n rankOf r = before n rankOf r := by
  unfold newGlobalOffset exscan
  split
  · rename_i h; subst h; rfl
  · rfl

/-- The number of a cell: behind the cells of the ranks before its own, and behind the cells of its own rank
that come before it in the file. -/
theorem partitioningToNumbering_eq (n : Nat) (rankOf : Nat → Nat) (c : Nat) (hc : c < n) :
    partitioningToNumbering n rankOf c
      = before n rankOf (rankOf c) + partitioningCount c rankOf (rankOf c) := by
  have := forN_invariant n (fun c (s : NumberingState) =>
      NumberingState.mk (wr s.next (rankOf c) (s.next (rankOf c) + 1)) (wr s.number c (s.next (rankOf c))))
    (NumberingState.mk (fun r => forN r (fun q k => k + partitioningCount n rankOf q) 0) (fun _ => 0))
    (fun k s => (∀ r, s.next r = before n rankOf r + partitioningCount k rankOf r)
      ∧ ∀ c < k, s.number c = before n rankOf (rankOf c) + partitioningCount c rankOf (rankOf c))
    ⟨fun r => rfl, fun c hc => absurd hc (Nat.not_lt_zero c)⟩ (by
      rintro k s _ ⟨h1, h2⟩
      refine ⟨fun r => ?_, fun c hc => ?_⟩
      · rw [partitioningCount_succ]
        simp only [wr]
        by_cases h : r = rankOf k
        · rw [if_pos h, if_pos h.symm, ← h, h1]; omega
        · rw [if_neg h, if_neg (fun e => h e.symm), h1, Nat.add_zero]
      · simp only [wr]
        by_cases h : c = k
        · rw [if_pos h, h1, h]
        · rw [if_neg h, h2 c (by omega)])
  exact this.2 c hc

theorem numbering_own (n : Nat) (rankOf : Nat → Nat) (c : Nat) (hc : c < n) :
    before n rankOf (rankOf c) ≤ partitioningToNumbering n rankOf c
      ∧ partitioningToNumbering n rankOf c < before n rankOf (rankOf c + 1) := by
  rw [partitioningToNumbering_eq n rankOf c hc, before_succ]
  have h := partitioningCount_mono rankOf (rankOf c) (show c + 1 ≤ n by omega)
  have e := partitioningCount_succ c rankOf (rankOf c)
  rw [if_pos rfl] at e
  change partitioningCount (c + 1) rankOf (rankOf c) ≤ partitioningCount n rankOf (rankOf c) at h
  constructor <;> omega

theorem numbering_order (n : Nat) (rankOf : Nat → Nat) (a b : Nat) (hb : b < n) (hab : a < b)
    (hr : rankOf a = rankOf b) : partitioningToNumbering n rankOf a < partitioningToNumbering n rankOf b := by
  rw [partitioningToNumbering_eq n rankOf a (by omega), partitioningToNumbering_eq n rankOf b hb, hr]
  have h := partitioningCount_mono rankOf (rankOf b) (show a + 1 ≤ b by omega)
  have e := partitioningCount_succ a rankOf (rankOf b)
  rw [if_pos hr] at e
  change partitioningCount (a + 1) rankOf (rankOf b) ≤ partitioningCount b rankOf (rankOf b) at h
  omega

theorem numbering_inj (n : Nat) (rankOf : Nat → Nat) (a b : Nat) (ha : a < n) (hb : b < n)
    (h : partitioningToNumbering n rankOf a = partitioningToNumbering n rankOf b) : a = b := by
  have h1 := numbering_own n rankOf a ha
  have h2 := numbering_own n rankOf b hb
  have hr : rankOf a = rankOf b := by
    rcases Nat.lt_trichotomy (rankOf a) (rankOf b) with hlt | heq | hgt
    · have := before_mono n rankOf (show rankOf a + 1 ≤ rankOf b by omega); omega
    · exact heq
    · have := before_mono n rankOf (show rankOf b + 1 ≤ rankOf a by omega); omega
  rcases Nat.lt_trichotomy a b with hlt | heq | hgt
  · have := numbering_order n rankOf a b hb hlt hr; omega
  · exact heq
  · have := numbering_order n rankOf b a ha hgt hr.symm; omega

/-- An injective map of the first `n` numbers into themselves has an inverse. -/
theorem numbering_inverse (n : Nat) (place : Nat → Nat) (hlt : ∀ c < n, place c < n)
    (hinj : ∀ a < n, ∀ b < n, place a = place b → a = b) : ∃ cell, Numbering n place cell := by
  classical
  let f : Fin n → Fin n := fun c => ⟨place c, hlt c c.2⟩
  have hf : Function.Injective f := fun a b e =>
    Fin.ext (hinj a a.2 b b.2 (congrArg Fin.val e))
  have hs : Function.Surjective f := Finite.surjective_of_injective hf
  have hex : ∀ p : Nat, ∃ c : Nat, p < n → c < n ∧ place c = p := by
    intro p
    by_cases hp : p < n
    · obtain ⟨c, hc⟩ := hs ⟨p, hp⟩
      exact ⟨c, fun _ => ⟨c.2, congrArg Fin.val hc⟩⟩
    · exact ⟨0, fun h => absurd h hp⟩
  choose cell hcell using hex
  exact ⟨cell, hlt, fun p hp => (hcell p hp).1,
    fun c hc => hinj _ (hcell _ (hlt c hc)).1 c hc (hcell _ (hlt c hc)).2, fun p hp => (hcell p hp).2⟩

/-- A loop over pairs finds the only pair with the number sought. -/
theorem applicationOrder_eq (ranks : Nat) (count offset : Nat → Nat) (natural : Nat → Nat → ℤ) (x : ℤ)
    (r i : Nat) (hr : r < ranks) (hi : i < count r) (hx : natural r i = x)
    (hone : ∀ q < ranks, ∀ j < count q, natural q j = x → j + offset q = i + offset r) :
    applicationOrder ranks count offset natural x = ((i + offset r : Nat) : ℤ) := by
  have inner : ∀ q, q < ranks → ∀ s : ℤ,
      (forN (count q) (fun j s => if natural q j = x then ((j + offset q : Nat) : ℤ) else s) s
        = ((i + offset r : Nat) : ℤ))
      ∨ ((∀ j < count q, natural q j ≠ x)
        ∧ forN (count q) (fun j s => if natural q j = x then ((j + offset q : Nat) : ℤ) else s) s = s) := by
    intro q hq s
    have := forN_invariant (count q)
      (fun j s => if natural q j = x then ((j + offset q : Nat) : ℤ) else s) s
      (fun k t => t = ((i + offset r : Nat) : ℤ) ∨ ((∀ j < k, natural q j ≠ x) ∧ t = s))
      (Or.inr ⟨fun j hj => absurd hj (Nat.not_lt_zero j), rfl⟩) (by
        intro k t hk ht
        by_cases h : natural q k = x
        · refine Or.inl ?_
          simp only [if_pos h]
          rw [hone q hq k hk h]
        · simp only [if_neg h]
          rcases ht with ht | ⟨h1, h2⟩
          · exact Or.inl ht
          · refine Or.inr ⟨fun j hj => ?_, h2⟩
            by_cases e : j = k
            · rw [e]; exact h
            · exact h1 j (by omega))
    exact this
  unfold applicationOrder
  have := forN_invariant ranks (fun q s => forN (count q)
      (fun j s => if natural q j = x then ((j + offset q : Nat) : ℤ) else s) s) (-1)
    (fun k t => k ≤ ranks → (t = ((i + offset r : Nat) : ℤ) ∨ k ≤ r))
    (fun _ => Or.inr (Nat.zero_le r)) (by
      intro k t hk ht _
      rcases inner k hk t with h | ⟨h1, h2⟩
      · exact Or.inl h
      · rw [h2]
        rcases ht (by omega) with h | h
        · exact Or.inl h
        · by_cases e : k = r
          · subst e; exact absurd hx (h1 i hi)
          · exact Or.inr (by omega))
  rcases this (le_refl _) with h | h
  · exact h
  · omega

/-- What is assumed of PETSc's partition in the theorems about imported meshes holds for every assignment of
the cells to ranks: the numbers of the cells are one-to-one onto the ranges of the ranks and the application
ordering takes every cell of the file to its number. -/
theorem C189_setting (f : Reading) (m : Mesh) (rankOf : Nat → Nat) (hf : Reads f m)
    (hr : Assigned f m rankOf) : ∃ cell, Setting (f.import rankOf) m cell := by
  have hn := hf.fileEnd
  obtain ⟨cell, hcell⟩ := numbering_inverse m.nCells (partitioningToNumbering m.nCells rankOf)
    (fun c hc => by
      have h1 := (numbering_own m.nCells rankOf c hc).2
      have h2 := before_mono m.nCells rankOf (show rankOf c + 1 ≤ f.ranks from hr c hc)
      have h3 := before_all m.nCells rankOf f.ranks hr
      omega)
    (fun a ha b hb => numbering_inj m.nCells rankOf a b ha hb)
  have base : ∀ ao : ℤ → ℤ, (∀ p < m.nCells, ao (cell p) = p) →
      Setting { f.numbered rankOf with ao := ao } m cell := by
    intro ao hao
    refine ⟨hf.file0, hf.fileMono, hf.fileEnd, ?_, ?_, ?_, hf.packs, ?_, hao, hf.sort, hf.mesh⟩
    · rfl
    · intro r
      change newGlobalOffset (f.fileOff f.ranks) rankOf r ≤ newGlobalOffset (f.fileOff f.ranks) rankOf (r + 1)
      rw [newGlobalOffset_eq, newGlobalOffset_eq]
      exact before_mono _ _ (Nat.le_succ r)
    · change newGlobalOffset (f.fileOff f.ranks) rankOf f.ranks = m.nCells
      rw [newGlobalOffset_eq, hn, before_all _ _ _ hr]
    · change Numbering m.nCells (partitioningToNumbering (f.fileOff f.ranks) rankOf) cell
      rw [hn]; exact hcell
  have hcount : ∀ r, partitioningCount m.nCells rankOf r
      = newGlobalOffset m.nCells rankOf (r + 1) - newGlobalOffset m.nCells rankOf r := by
    intro r
    rw [newGlobalOffset_eq, newGlobalOffset_eq, before_succ]; omega
  have hnat : ∀ r < f.ranks, ∀ i < partitioningCount m.nCells rankOf r,
      (f.numbered rankOf).natural0 r i = cell (newGlobalOffset m.nCells rankOf r + i) := by
    intro r hr' i hi
    have hS := base (fun x => (partitioningToNumbering m.nCells rankOf x.toNat : ℤ)) (fun p hp => by
      simp only [Int.toNat_natCast]
      rw [hcell.placeCell p hp])
    have := (C65_records _ m cell hS r hr' i (by
      change i < newGlobalOffset (f.fileOff f.ranks) rankOf (r + 1)
        - newGlobalOffset (f.fileOff f.ranks) rankOf r
      rw [hn, ← hcount]; exact hi)).2
    refine this.trans ?_
    change (cell (newGlobalOffset (f.fileOff f.ranks) rankOf r + i) : ℤ) = _
    rw [hn]
  have hin : ∀ r < f.ranks, ∀ i < partitioningCount m.nCells rankOf r,
      newGlobalOffset m.nCells rankOf r + i < m.nCells := by
    intro r hr' i hi
    rw [newGlobalOffset_eq]
    have h1 := before_mono m.nCells rankOf (show r + 1 ≤ f.ranks from hr')
    rw [before_succ, before_all _ _ _ hr] at h1
    omega
  refine ⟨cell, base _ ?_⟩
  intro p hp
  have hc := hcell.cellLt p hp
  have ho := numbering_own m.nCells rankOf (cell p) hc
  rw [hcell.placeCell p hp] at ho
  have hr' := hr (cell p) hc
  rw [hn]
  rw [before_succ] at ho
  have hpe : newGlobalOffset m.nCells rankOf (rankOf (cell p))
      + (p - newGlobalOffset m.nCells rankOf (rankOf (cell p))) = p := by
    rw [newGlobalOffset_eq]; omega
  have hi : p - newGlobalOffset m.nCells rankOf (rankOf (cell p))
      < partitioningCount m.nCells rankOf (rankOf (cell p)) := by
    rw [newGlobalOffset_eq]; omega
  rw [applicationOrder_eq f.ranks _ _ _ (cell p) (rankOf (cell p))
    (p - newGlobalOffset m.nCells rankOf (rankOf (cell p))) hr' hi
    (by rw [hnat _ hr' _ hi, hpe]) ?_]
  · congr 1; omega
  · intro q hq j hj e
    rw [hnat q hq j hj] at e
    have e' : cell (newGlobalOffset m.nCells rankOf q + j) = cell p := by exact_mod_cast e
    have := hcell.placeCell _ (hin q hq j hj)
    rw [e', hcell.placeCell p hp] at this
    omega

/-- Every cell of the file is owned by the rank the partitioner gave it and by no other; a rank numbers its
cells in the order of the file; the grid keeps this first number of its own (`global_offset`) on every rank,
the first included. -/
theorem C189_owner (f : Reading) (m : Mesh) (rankOf : Nat → Nat) (hf : Reads f m) :
    (∀ c < m.nCells, ∀ r, Owns (f.import rankOf) r ((f.import rankOf).numbering c) ↔ r = rankOf c)
      ∧ (∀ a b, a < b → b < m.nCells → rankOf a = rankOf b →
        (f.import rankOf).numbering a < (f.import rankOf).numbering b)
      ∧ (∀ r, (f.import rankOf).n r = ((Finset.range m.nCells).filter (fun c => rankOf c = r)).card)
      ∧ ∀ nFile r, globalOffset nFile m.nCells rankOf r = (f.import rankOf).off r := by
  have hn := hf.fileEnd
  refine ⟨?_, ?_, ?_, ?_⟩
  · intro c hc r
    change newGlobalOffset (f.fileOff f.ranks) rankOf r ≤ partitioningToNumbering (f.fileOff f.ranks) rankOf c
      ∧ partitioningToNumbering (f.fileOff f.ranks) rankOf c
        < newGlobalOffset (f.fileOff f.ranks) rankOf (r + 1) ↔ _
    rw [hn, newGlobalOffset_eq, newGlobalOffset_eq]
    have h1 := numbering_own m.nCells rankOf c hc
    constructor
    · rintro ⟨h2, h3⟩
      rcases Nat.lt_trichotomy r (rankOf c) with hlt | heq | hgt
      · have := before_mono m.nCells rankOf (show r + 1 ≤ rankOf c by omega); omega
      · exact heq
      · have := before_mono m.nCells rankOf (show rankOf c + 1 ≤ r by omega); omega
    · rintro rfl; exact h1
  · intro a b hab hb e
    change partitioningToNumbering (f.fileOff f.ranks) rankOf a
      < partitioningToNumbering (f.fileOff f.ranks) rankOf b
    rw [hn]
    exact numbering_order m.nCells rankOf a b hb hab e
  · intro r
    change newGlobalOffset (f.fileOff f.ranks) rankOf (r + 1)
      - newGlobalOffset (f.fileOff f.ranks) rankOf r = _
    rw [newGlobalOffset_eq, newGlobalOffset_eq, before_succ, Nat.add_sub_cancel_left, hn]
    generalize m.nCells = n
    induction n with
    | zero => rfl
    | succ n ih =>
      rw [partitioningCount_succ, ih, Finset.range_add_one, Finset.filter_insert]
      split
      · rw [Finset.card_insert_of_notMem (by simp)]
      · rfl
  · intro nFile r
    change _ = newGlobalOffset (f.fileOff f.ranks) rankOf r
    rw [hn]
    unfold globalOffset newGlobalOffset packedOffset exscan
    split <;> rfl

/-- The import from the file to the local cells, for every answer of the partitioner: a cell `c` of the file
is a local cell of exactly the rank it was given to, once; there its natural number is `c` again, its vertices
and neighbours are those of the file, and a neighbour is marked as a ghost exactly when it was given to
another rank. -/
theorem C189_import (f : Reading) (m : Mesh) (rankOf : Nat → Nat) (hf : Reads f m)
    (hr : Assigned f m rankOf) (c : Nat) (hc : c < m.nCells) :
    (∀ r < f.ranks, ∀ i < (f.import rankOf).n r,
        (f.import rankOf).natural r i = c ↔ r = rankOf c ∧ (f.import rankOf).off r + i
          = (f.import rankOf).numbering c)
      ∧ ∃ i < (f.import rankOf).n (rankOf c), (f.import rankOf).natural (rankOf c) i = c
        ∧ ((f.import rankOf).neighbours (rankOf c) i).num = m.numDual c
        ∧ ((∃ k < f.L.maxVerts, 0 ≤ m.vert c k) → ∃ vs, (f.import rankOf).vertices (rankOf c) = .ok vs
          ∧ (vs.cell i).num = (present (m.vert c) f.L.maxVerts).length
          ∧ ∀ j < (vs.cell i).num, (vs.cell i).ids j < vs.num
            ∧ (present (m.vert c) f.L.maxVerts)[j]? = some (vs.natural ((vs.cell i).ids j)))
        ∧ ∀ d < m.numDual c,
          (f.import rankOf).natural (rankOf c)
              (((f.import rankOf).neighbours (rankOf c) i).ids d).natAbs = m.dual c d
            ∧ (((f.import rankOf).neighbours (rankOf c) i).ids d < 0 ↔ rankOf (m.dual c d) ≠ rankOf c) := by
  obtain ⟨cell, hS⟩ := C189_setting f m rankOf hf hr
  obtain ⟨how, -, -, -⟩ := C189_owner f m rankOf hf
  have hN := hS.numbering
  have key : ∀ r < f.ranks, ∀ i < (f.import rankOf).n r,
      (f.import rankOf).natural r i = c ↔ r = rankOf c ∧ (f.import rankOf).off r + i
        = (f.import rankOf).numbering c := by
    intro r hr' i hi
    have hnat := (C66_natural _ m cell hS r hr').1 i hi
    have hlt := rank_lt _ m cell hS r hr' i hi
    constructor
    · intro e
      have e' : cell ((f.import rankOf).off r + i) = c := by
        have := hnat.symm.trans e; exact_mod_cast this
      have hp := hN.placeCell _ hlt
      rw [e'] at hp
      refine ⟨?_, hp.symm⟩
      apply (how c hc r).1
      unfold World.n at hi
      constructor <;> omega
    · rintro ⟨_, e⟩
      rw [hnat, e, hN.cellPlace c hc]
  refine ⟨key, ?_⟩
  have ho := (how c hc (rankOf c)).2 rfl
  unfold Owns at ho
  have hi : (f.import rankOf).numbering c - (f.import rankOf).off (rankOf c) < (f.import rankOf).n (rankOf c) := by
    unfold World.n; omega
  have hcell : cell ((f.import rankOf).off (rankOf c)
      + ((f.import rankOf).numbering c - (f.import rankOf).off (rankOf c))) = c := by
    rw [show (f.import rankOf).off (rankOf c)
      + ((f.import rankOf).numbering c - (f.import rankOf).off (rankOf c)) = (f.import rankOf).numbering c by omega]
    exact hN.cellPlace c hc
  have hnat := (key _ (hr c hc) _ hi).2 ⟨rfl, by omega⟩
  have hgh := Nat.lt_of_lt_of_le hi (Nat.le_add_right _ ((f.import rankOf).local (rankOf c)).numGhost)
  refine ⟨_, hi, hnat, ?_⟩
  have h := C66_neighbours _ m cell hS (rankOf c) (hr c hc) _ hi
  rw [hcell] at h
  refine ⟨h.1, ?_, fun d hd => ⟨(h.2 d hd).2.1, (h.2 d hd).2.2.trans ?_⟩⟩
  · rintro ⟨k, hk, hv⟩
    obtain ⟨vs, e, hvs, -⟩ := C67_vertices _ m cell hS (rankOf c) (hr c hc) ⟨_, hgh, k, hk, c, hnat, hv⟩
    exact ⟨vs, e, hvs _ hgh c hnat⟩
  · have hd' : m.dual c d < m.nCells := (hS.mesh.inside c hc d hd)
    rw [how _ hd' (rankOf c)]
    exact not_congr eq_comm

namespace PartitionWitness

/-- The example of `UGridWitness` as read by its two ranks. -/
noncomputable def reading : Reading where
  L := UGridWitness.world.L
  ranks := 2
  fileOff := UGridWitness.world.fileOff
  sort := UGridWitness.world.sort
  cv := UGridWitness.world.cv
  ia := UGridWitness.world.ia
  ja := UGridWitness.world.ja

theorem reads : Reads reading UGridWitness.mesh :=
  have h := UGridWitness.setting
  ⟨h.file0, h.fileMono, h.fileEnd, h.packs, h.sort, h.mesh⟩

/-- The partitioner gives the cells at both ends to rank 1 and the one between to rank 0. -/
def rankOf : Nat → Nat := fun c => match c with | 1 => 0 | _ => 1

theorem assigned : Assigned reading UGridWitness.mesh rankOf := by
  intro c hc
  change c < 3 at hc
  change rankOf c < 2
  interval_cases c <;> decide

end PartitionWitness

open PartitionWitness in
/-- The two ranks then own one and two cells, and the cell of rank 0 sees both neighbours as ghosts. -/
example : (reading.import rankOf).n 0 = 1 ∧ (reading.import rankOf).n 1 = 2
    ∧ ∃ i < (reading.import rankOf).n 0, (reading.import rankOf).natural 0 i = 1
      ∧ ((reading.import rankOf).neighbours 0 i).num = 2
      ∧ ∀ d < 2, ((reading.import rankOf).neighbours 0 i).ids d < 0 := by
  obtain ⟨-, i, hi, h1, h2, -, h4⟩ :=
    C189_import reading UGridWitness.mesh rankOf reads assigned 1 (by decide)
  refine ⟨rfl, rfl, i, hi, h1, h2, fun d hd => (h4 d hd).2.2 ?_⟩
  interval_cases d <;> decide

end TDy.UGrid.Props
