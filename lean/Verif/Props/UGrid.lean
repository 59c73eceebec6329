import Verif.Proofs.UGridVertices

/-!
# Importing a mesh: the distributed grid is the mesh of the file
-/

namespace TDy.UGrid.Props

open TDy.UGrid.Spec TDy.UGrid.Proofs

/-! ## Records -/

/-- What a rank writes into its part of the vector is one record per cell, filling it exactly. -/
theorem C65_pack (L : Layout) (m : Mesh) (off n : Nat) (cv : Nat → Nat → ℤ) (ia ja : Nat → Nat)
    (v0 : Nat → ℤ) (hp : Packs m L off n cv ia ja) :
    (pack L off n cv ia ja v0).count = n*L.stride
      ∧ ∀ i < n, RecordAt L m (pack L off n cv ia ja v0).v i (off + i) :=
  pack_records L m off n cv ia ja v0 hp

theorem preVec_records (w : World) (m : Mesh) (cell : Nat → Nat) (hw : Setting w m cell) :
    ∀ c < m.nCells, RecordAt w.L m w.preVec c c := by
  intro c hc
  obtain ⟨r, hr, h1, h2⟩ := owner w.ranks w.fileOff hw.file0 c (by rw [hw.fileEnd]; exact hc)
  have hd := distribute_apply w.ranks w.fileOff w.L.stride hw.fileMono
    (fun r => (pack w.L (w.fileOff r) (w.nFile r) (w.cv r) (w.ia r) (w.ja r) (fun _ => 0)).v) r hr
  have hrec := (pack_records w.L m (w.fileOff r) (w.nFile r) (w.cv r) (w.ia r) (w.ja r) (fun _ => 0)
    (hw.packs r hr)).2 (c - w.fileOff r) (by unfold World.nFile; omega)
  rw [show w.fileOff r + (c - w.fileOff r) = c by omega] at hrec
  refine recordAt_of_eq ?_ hrec
  intro a ha
  have := hd ((c - w.fileOff r)*w.L.stride + a) (by
    calc (c - w.fileOff r)*w.L.stride + a < (c - w.fileOff r)*w.L.stride + w.L.stride := by omega
      _ = (c - w.fileOff r + 1)*w.L.stride := by ring
      _ ≤ (w.fileOff (r + 1) - w.fileOff r)*w.L.stride := Nat.mul_le_mul_right _ (by omega))
  rw [← Nat.add_assoc, ← Nat.add_mul, show w.fileOff r + (c - w.fileOff r) = c by omega] at this
  exact this

theorem postVec_records (w : World) (m : Mesh) (cell : Nat → Nat) (hw : Setting w m cell) :
    ∀ p < m.nCells, RecordAt w.L m w.postVec p (cell p) := by
  have h := postPart_records w.L m m.nCells w.numbering cell hw.numbering w.preVec (fun _ => 0)
    (preVec_records w m cell hw)
  unfold World.postVec
  rw [hw.fileEnd]
  exact h

theorem rank_lt (w : World) (m : Mesh) (cell : Nat → Nat) (hw : Setting w m cell) (r : Nat)
    (hr : r < w.ranks) (i : Nat) (hi : i < w.n r) : w.off r + i < m.nCells := by
  have mono : ∀ a b, a ≤ b → w.off a ≤ w.off b := by
    intro a b hab
    induction hab with
    | refl => exact le_refl _
    | step _ ih => exact le_trans ih (hw.offMono _)
  have := mono (r + 1) w.ranks hr
  rw [hw.offEnd] at this
  unfold World.n at hi
  omega

/-- After the partition every rank finds, for each of its cells, the record of that cell: the natural id
that it stores is the id of the cell, and vertices and neighbours are those of the file. -/
theorem C65_records (w : World) (m : Mesh) (cell : Nat → Nat) (hw : Setting w m cell) (r : Nat)
    (hr : r < w.ranks) (i : Nat) (hi : i < w.n r) :
    RecordAt w.L m (w.slice w.postVec r) i (cell (w.off r + i))
      ∧ w.natural0 r i = cell (w.off r + i) := by
  have hrec : ∀ i < w.n r, RecordAt w.L m (w.slice w.postVec r) i (cell (w.off r + i)) := by
    intro i hi
    refine recordAt_of_eq ?_ (postVec_records w m cell hw _ (rank_lt w m cell hw r hr i hi))
    intro a _
    unfold World.slice
    rw [← Nat.add_assoc, ← Nat.add_mul]
  exact ⟨hrec i hi, naturalIds_apply w.L m (w.n r) _ (fun i => cell (w.off r + i)) hrec i hi⟩

/-- The arrays that are sized by a first pass are filled exactly by the second. -/
theorem C65_sizes (L : Layout) (off n : Nat) (v natural : Nat → ℤ) :
    (collectIds L n v natural).count = countIds L n v
      ∧ (markGhosts L off n v).num = countGhosts L off n v :=
  ⟨collectIds_size L n v natural, markGhosts_size L off n v⟩

/-! ## Cells -/

/-- One conversion step on its own: whatever (non-negative) PETSc numbers a rank holds for its
neighbours, an owned neighbour becomes its 1-based local number, a neighbour of another rank becomes a
number behind the owned cells which stands for it in the list of ghosts; the list is strictly increasing,
has no owned cell, and has only cells that are neighbours. -/
theorem C66_renumber (L : Layout) (off n : Nat) (sort : Nat → (Nat → ℤ) → Nat → Nat) (hsort : Sorts sort)
    (v : Nat → ℤ) :
    (∀ i < n, ∀ d < L.maxDual, 0 < v (L.dualPos i d) → ∃ l : Nat, l < n + (toLocal L off n sort v).numGhost
        ∧ (toLocal L off n sort v).v (L.dualPos i d) = (l : ℤ) + 1
        ∧ (if l < n then (off : ℤ) + l else (toLocal L off n sort v).ghostIds (l - n))
          = v (L.dualPos i d) - 1
        ∧ (l < n ↔ (off : ℤ) ≤ v (L.dualPos i d) - 1 ∧ v (L.dualPos i d) - 1 < off + n))
      ∧ (∀ i < n, ∀ d < L.maxDual, v (L.dualPos i d) = 0 →
        (toLocal L off n sort v).v (L.dualPos i d) = 0)
      ∧ (∀ g h, g < h → h < (toLocal L off n sort v).numGhost →
        (toLocal L off n sort v).ghostIds g < (toLocal L off n sort v).ghostIds h)
      ∧ (∀ g < (toLocal L off n sort v).numGhost,
        ((toLocal L off n sort v).ghostIds g < off ∨ (off : ℤ) + n ≤ (toLocal L off n sort v).ghostIds g)
        ∧ ∃ i < n, ∃ d < L.maxDual, 0 < v (L.dualPos i d)
          ∧ (toLocal L off n sort v).ghostIds g = v (L.dualPos i d) - 1) := by
  have hL := toLocal_localised L off n sort hsort v
  refine ⟨?_, hL.none, hL.strict, ?_⟩
  · intro i hi d hd hp
    by_cases hg : isGhost off n (v (L.dualPos i d))
    · obtain ⟨g, hgl, e1, e2⟩ := hL.ghost i hi d hd hp hg
      refine ⟨n + g, by omega, by rw [e1]; push_cast; ring, ?_, ?_⟩
      · rw [if_neg (by omega), show n + g - n = g by omega, e2]
      · unfold isGhost at hg
        omega
    · have e := hL.owned i hi d hd hp hg
      unfold isGhost at hg
      refine ⟨(v (L.dualPos i d) - off - 1).toNat, by omega, by rw [e]; omega, ?_, by omega⟩
      rw [if_pos (by omega)]
      omega
  · intro g hg
    obtain ⟨i, hi, d, hd, h1, h2, h3⟩ := hL.real g hg
    unfold isGhost at h2
    exact ⟨by omega, i, hi, d, hd, h1, h3⟩

section Pipeline

variable (w : World) (m : Mesh) (cell : Nat → Nat) (hw : Setting w m cell)

include hw

theorem ao_place (c : Nat) (hc : c < m.nCells) : w.ao c = w.numbering c := by
  have := hw.ao _ (hw.numbering.placeLt c hc)
  rw [hw.numbering.cellPlace c hc] at this
  exact this

theorem global_duals (r : Nat) (hr : r < w.ranks) (i : Nat) (hi : i < w.n r) (d : Nat)
    (hd : d < w.L.maxDual) :
    (w.global r).v (w.L.dualPos i d) = if d < m.numDual (cell (w.off r + i)) then
      (w.numbering (m.dual (cell (w.off r + i)) d) : ℤ) + 1 else 0 := by
  have hrec := (C65_records w m cell hw r hr i hi).1
  have hv : (w.slice w.postVec r) (w.L.dualPos i d)
      = if d < m.numDual (cell (w.off r + i)) then (m.dual (cell (w.off r + i)) d : ℤ) + 1 else 0 := by
    rw [← hrec.duals d hd]
    congr 1
    rw [dualPos_eq]; omega
  have := (toGlobal_spec w.L (w.n r) w.ao (w.natural0 r) (w.slice w.postVec r)).2.1 i hi d hd
  unfold World.global
  rw [this, hv]
  by_cases h : d < m.numDual (cell (w.off r + i))
  · rw [if_pos h, if_pos h, if_pos (by omega)]
    have hc := hw.mesh.inside _ (hw.numbering.cellLt _ (rank_lt w m cell hw r hr i hi)) d h
    rw [show (m.dual (cell (w.off r + i)) d : ℤ) + 1 - 1 = (m.dual (cell (w.off r + i)) d : ℤ) by ring,
      ao_place w m cell hw _ hc]
  · rw [if_neg h, if_neg h, if_neg (by omega)]

theorem global_petsc (r : Nat) (hr : r < w.ranks) (i : Nat) (hi : i < w.n r) :
    (w.global r).petsc i = (w.off r : ℤ) + i := by
  have := ((toGlobal_spec w.L (w.n r) w.ao (w.natural0 r) (w.slice w.postVec r)).1 i hi).1
  unfold World.global
  rw [this, (C65_records w m cell hw r hr i hi).2, hw.ao _ (rank_lt w m cell hw r hr i hi)]
  push_cast; ring

/-- The PETSc number of local cell `l` of rank `r`. -/
def petscOf (w : World) (r l : Nat) : ℤ :=
  if l < w.n r then (w.off r : ℤ) + l else (w.local r).ghostIds (l - w.n r)

/-- The ghost cells of a rank: listed once, in increasing order of their PETSc numbers, none of them
owned; they are exactly the neighbours of owned cells that the rank does not own. -/
theorem C66_ghosts (r : Nat) (hr : r < w.ranks) :
    (∀ g h, g < h → h < (w.local r).numGhost → (w.local r).ghostIds g < (w.local r).ghostIds h)
      ∧ ∀ p : Nat, (∃ g < (w.local r).numGhost, (w.local r).ghostIds g = p)
        ↔ ¬ Owns w r p ∧ ∃ i < w.n r, ∃ d < m.numDual (cell (w.off r + i)),
          w.numbering (m.dual (cell (w.off r + i)) d) = p := by
  have hL : Localised w.L (w.off r) (w.n r) (w.global r).v (w.local r) :=
    toLocal_localised w.L (w.off r) (w.n r) w.sort hw.sort (w.global r).v
  have hmono := hw.offMono r
  refine ⟨hL.strict, fun p => ⟨?_, ?_⟩⟩
  · rintro ⟨g, hg, e⟩
    obtain ⟨i, hi, d, hd, h1, h2, h3⟩ := hL.real g hg
    have hv := global_duals w m cell hw r hr i hi d hd
    by_cases h : d < m.numDual (cell (w.off r + i))
    · rw [if_pos h] at hv
      rw [hv] at h2 h3
      unfold isGhost World.n at h2
      refine ⟨?_, i, hi, d, h, ?_⟩
      · unfold Owns; omega
      · omega
    · rw [if_neg h] at hv; omega
  · rintro ⟨hno, i, hi, d, hd, e⟩
    have hd' : d < w.L.maxDual := lt_of_lt_of_le hd
      (hw.mesh.fits _ (hw.numbering.cellLt _ (rank_lt w m cell hw r hr i hi)))
    have hv := global_duals w m cell hw r hr i hi d hd'
    rw [if_pos hd, e] at hv
    obtain ⟨g, hg, _, e2⟩ := hL.ghost i hi d hd' (by omega) (by
      rw [hv]; unfold isGhost World.n; unfold Owns at hno; omega)
    exact ⟨g, hg, by rw [e2, hv]; ring⟩

/-- Where a neighbour ends up: a local number that stands for its PETSc number. -/
theorem local_duals (r : Nat) (hr : r < w.ranks) (i : Nat) (hi : i < w.n r) (d : Nat)
    (hd : d < m.numDual (cell (w.off r + i))) :
    ∃ l : Nat, l < w.ghosted r ∧ (w.local r).v (w.L.dualPos i d) = (l : ℤ) + 1
      ∧ petscOf w r l = w.numbering (m.dual (cell (w.off r + i)) d)
      ∧ (l < w.n r ↔ Owns w r (w.numbering (m.dual (cell (w.off r + i)) d))) := by
  have hd' : d < w.L.maxDual := lt_of_lt_of_le hd
    (hw.mesh.fits _ (hw.numbering.cellLt _ (rank_lt w m cell hw r hr i hi)))
  have hv := global_duals w m cell hw r hr i hi d hd'
  rw [if_pos hd] at hv
  have hmono := hw.offMono r
  obtain ⟨l, h1, h2, h3, h4⟩ := (C66_renumber w.L (w.off r) (w.n r) w.sort hw.sort
    (w.global r).v).1 i hi d hd' (by omega)
  refine ⟨l, h1, h2, ?_, ?_⟩
  · unfold petscOf
    rw [hv] at h3
    simp only [add_sub_cancel_right] at h3
    exact h3
  · rw [h4, hv]
    unfold Owns World.n
    omega

theorem local_none (r : Nat) (hr : r < w.ranks) (i : Nat) (hi : i < w.n r) (d : Nat)
    (hd : d < w.L.maxDual) (h : ¬ d < m.numDual (cell (w.off r + i))) :
    (w.local r).v (w.L.dualPos i d) = 0 := by
  have hv := global_duals w m cell hw r hr i hi d hd
  rw [if_neg h] at hv
  exact (C66_renumber w.L (w.off r) (w.n r) w.sort hw.sort (w.global r).v).2.1 i hi d hd hv

/-- The natural number that a rank stores for each of its cells, owned or ghost, is the natural number of
the cell at that PETSc number. -/
theorem C66_natural (r : Nat) (hr : r < w.ranks) :
    (∀ i < w.n r, w.natural r i = cell (w.off r + i))
      ∧ ∀ g < (w.local r).numGhost, ∃ p : Nat, p < m.nCells ∧ (w.local r).ghostIds g = p
        ∧ w.natural r (w.n r + g) = cell p := by
  have hL : Localised w.L (w.off r) (w.n r) (w.global r).v (w.local r) :=
    toLocal_localised w.L (w.off r) (w.n r) w.sort hw.sort (w.global r).v
  have hU := updateNatural_apply w.L (w.n r) (w.natural0 r) (w.local r).v (w.slice w.postVec r)
    (fun l => (cell (petscOf w r l).toNat : ℤ)) (by
      intro i hi d hd hlt
      by_cases h : d < m.numDual (cell (w.off r + i))
      · obtain ⟨l, h1, h2, h3, h4⟩ := local_duals w m cell hw r hr i hi d h
        rw [h2, show ((l : ℤ) + 1 - 1).toNat = l by omega, h3]
        have hrec := (C65_records w m cell hw r hr i hi).1
        have hv := hrec.duals d hd
        rw [if_pos h] at hv
        have hpos : i*w.L.stride + 2 + w.L.maxVerts + 1 + d = w.L.dualPos i d := by
          rw [dualPos_eq]; omega
        rw [hpos] at hv
        rw [hv, Int.toNat_natCast, hw.numbering.cellPlace _ (hw.mesh.inside _
          (hw.numbering.cellLt _ (rank_lt w m cell hw r hr i hi)) d h)]
        ring
      · have := local_none w m cell hw r hr i hi d hd h
        omega)
  refine ⟨fun i hi => ?_, fun g hg => ?_⟩
  · exact (hU.1 i hi).trans (C65_records w m cell hw r hr i hi).2
  · obtain ⟨i, hi, d, hd, h1, h2, h3⟩ := hL.real g hg
    have hv := global_duals w m cell hw r hr i hi d hd
    by_cases h : d < m.numDual (cell (w.off r + i))
    · rw [if_pos h] at hv
      have hin := hw.mesh.inside _ (hw.numbering.cellLt _ (rank_lt w m cell hw r hr i hi)) d h
      obtain ⟨g', hg', e1, e2⟩ := hL.ghost i hi d hd h1 h2
      have hgg : g' = g := by
        rcases Nat.lt_trichotomy g' g with hlt | heq | hlt
        · have := hL.strict _ _ hlt hg; omega
        · exact heq
        · have := hL.strict _ _ hlt hg'; omega
      subst hgg
      have hval : (w.local r).ghostIds g' = w.numbering (m.dual (cell (w.off r + i)) d) := by
        rw [h3, hv]; ring
      refine ⟨w.numbering (m.dual (cell (w.off r + i)) d), hw.numbering.placeLt _ hin, hval, ?_⟩
      have := hU.2 i hi d hd (by rw [e1]; omega)
      rw [e1, show ((w.n r : ℤ) + g' + 1 - 1).toNat = w.n r + g' by omega] at this
      unfold World.natural
      rw [this]
      unfold petscOf
      rw [if_neg (by omega), show w.n r + g' - w.n r = g' by omega, hval, Int.toNat_natCast]
    · rw [if_neg h] at hv; omega

/-- End to end: the row of neighbours that a rank stores for its cell has one entry per neighbour of the
cell in the mesh; the entry's absolute value is a local cell whose natural number is that neighbour; it is
negative exactly if the neighbour is owned by another rank. -/
theorem C66_neighbours (r : Nat) (hr : r < w.ranks) (i : Nat) (hi : i < w.n r) :
    (w.neighbours r i).num = m.numDual (cell (w.off r + i))
      ∧ ∀ d < m.numDual (cell (w.off r + i)),
        ((w.neighbours r i).ids d).natAbs < w.ghosted r
        ∧ w.natural r ((w.neighbours r i).ids d).natAbs = m.dual (cell (w.off r + i)) d
        ∧ ((w.neighbours r i).ids d < 0
            ↔ ¬ Owns w r (w.numbering (m.dual (cell (w.off r + i)) d))) := by
  have hfit := hw.mesh.fits _ (hw.numbering.cellLt _ (rank_lt w m cell hw r hr i hi))
  have hN := neighbours_apply w.L (w.n r) (w.local r).v i (m.numDual (cell (w.off r + i))) hfit (by
    intro d hd
    constructor
    · intro h
      by_contra hno
      have := local_none w m cell hw r hr i hi d hd hno
      omega
    · intro h
      obtain ⟨l, _, h2, _⟩ := local_duals w m cell hw r hr i hi d h
      omega)
  refine ⟨hN.1, fun d hd => ?_⟩
  have hid := hN.2 d hd
  obtain ⟨l, h1, h2, h3, h4⟩ := local_duals w m cell hw r hr i hi d hd
  rw [h2] at hid
  have hin := hw.mesh.inside _ (hw.numbering.cellLt _ (rank_lt w m cell hw r hr i hi)) d hd
  have hnat := C66_natural w m cell hw r hr
  unfold World.neighbours
  by_cases hl : l < w.n r
  · rw [if_neg (by omega), show (l : ℤ) + 1 - 1 = l by ring] at hid
    rw [hid]
    refine ⟨by simpa using h1, ?_, ?_⟩
    · rw [Int.natAbs_natCast, hnat.1 l hl]
      unfold petscOf at h3
      rw [if_pos hl] at h3
      have : w.off r + l = w.numbering (m.dual (cell (w.off r + i)) d) := by omega
      rw [this, hw.numbering.cellPlace _ hin]
    · have := h4.1 hl
      constructor
      · intro h; omega
      · intro h; exact absurd this h
  · rw [if_pos (by omega)] at hid
    have hab : ((neighbours w.L (w.n r) (w.local r).v i).ids d).natAbs = l := by rw [hid]; omega
    rw [hab]
    refine ⟨h1, ?_, ?_⟩
    · unfold World.ghosted at h1
      obtain ⟨p, hp, e1, e2⟩ := hnat.2 (l - w.n r) (by omega)
      rw [show w.n r + (l - w.n r) = l by omega] at e2
      unfold petscOf at h3
      rw [if_neg hl, e1] at h3
      have : p = w.numbering (m.dual (cell (w.off r + i)) d) := by omega
      rw [e2, this, hw.numbering.cellPlace _ hin]
    · rw [hid]
      constructor
      · intro _ h; exact hl (h4.2 h)
      · intro _; omega

/-! ## Vertices -/

theorem petscOf_lt (r : Nat) (hr : r < w.ranks) (l : Nat) (hl : l < w.ghosted r) :
    ∃ p : Nat, p < m.nCells ∧ petscOf w r l = p ∧ w.natural r l = cell p := by
  have hnat := C66_natural w m cell hw r hr
  unfold petscOf
  by_cases h : l < w.n r
  · rw [if_pos h]
    exact ⟨w.off r + l, rank_lt w m cell hw r hr l h, by push_cast; ring, hnat.1 l h⟩
  · rw [if_neg h]
    unfold World.ghosted at hl
    obtain ⟨p, hp, e1, e2⟩ := hnat.2 (l - w.n r) (by omega)
    rw [show w.n r + (l - w.n r) = l by omega] at e2
    exact ⟨p, hp, e1, e2⟩

theorem petscVec_verts (p : Nat) (hp : p < m.nCells) (k : Nat) (hk : k < w.L.maxVerts) :
    w.petscVec (p*w.L.stride + (2 + k)) = m.vert (cell p) k + 1 := by
  obtain ⟨r, hr, h1, h2⟩ := owner w.ranks w.off hw.off0 p (by rw [hw.offEnd]; exact hp)
  have hS := stride_eq w.L
  have hi : p - w.off r < w.n r := by unfold World.n; omega
  have hd := distribute_apply w.ranks w.off w.L.stride hw.offMono (fun r => (w.local r).v) r hr
    ((p - w.off r)*w.L.stride + (2 + k)) (by
      calc (p - w.off r)*w.L.stride + (2 + k) < (p - w.off r)*w.L.stride + w.L.stride := by omega
        _ = (p - w.off r + 1)*w.L.stride := by ring
        _ ≤ (w.off (r + 1) - w.off r)*w.L.stride := Nat.mul_le_mul_right _ (by omega))
  rw [← Nat.add_assoc, ← Nat.add_mul, show w.off r + (p - w.off r) = p by omega] at hd
  unfold World.petscVec
  refine hd.trans ?_
  have hL : Localised w.L (w.off r) (w.n r) (w.global r).v (w.local r) :=
    toLocal_localised w.L (w.off r) (w.n r) w.sort hw.sort (w.global r).v
  have hne : ∀ i d, (p - w.off r)*w.L.stride + (2 + k) ≠ w.L.dualPos i d ∨ w.L.maxDual ≤ d := by
    intro i d
    by_cases hd : d < w.L.maxDual
    · left
      intro h
      rw [dualPos_eq] at h
      have := pos_inj (by omega) (by omega) h
      omega
    · right; omega
  have hne2 : ∀ i, (p - w.off r)*w.L.stride + (2 + k) ≠ i*w.L.stride := by
    intro i h
    have := pos_inj (a' := 0) (by omega) (by omega) (h.trans (Nat.add_zero _).symm)
    omega
  have e1 := hL.rest ((p - w.off r)*w.L.stride + (2 + k)) (fun i _ d hd => by
    rcases hne i d with h | h
    · exact h
    · omega)
  have e2 := (toGlobal_spec w.L (w.n r) w.ao (w.natural0 r) (w.slice w.postVec r)).2.2
    ((p - w.off r)*w.L.stride + (2 + k)) (fun i _ => ⟨hne2 i, fun d hd => by
      rcases hne i d with h | h
      · exact h
      · omega⟩)
  have e3 := (C65_records w m cell hw r hr (p - w.off r) hi).1.verts k hk
  rw [show w.off r + (p - w.off r) = p by omega, Nat.add_assoc] at e3
  exact e1.trans (e2.trans e3)

theorem records_verts (r : Nat) (hr : r < w.ranks) (l : Nat) (hl : l < w.ghosted r) (p : Nat)
    (hp : p < m.nCells) (e : petscOf w r l = p) (k : Nat) (hk : k < w.L.maxVerts) :
    w.records r (w.L.vertPos l k) = m.vert (cell p) k + 1 := by
  have hS := stride_eq w.L
  have hlc := localCells_apply (w.n r) (w.global r).petsc (w.local r).ghostIds (w.local r).numGhost
  have hidx : localCells (w.n r) (w.global r).petsc (w.local r).ghostIds (w.local r).numGhost l = p := by
    rw [← e]
    unfold petscOf
    by_cases h : l < w.n r
    · rw [if_pos h, hlc.1 l h, global_petsc w m cell hw r hr l h]
    · rw [if_neg h]
      unfold World.ghosted at hl
      have := hlc.2 (l - w.n r) (by omega)
      rw [show w.n r + (l - w.n r) = l by omega] at this
      exact this
  rw [vertPos_eq]
  unfold World.records
  rw [localRecords_apply w.L (w.ghosted r) _ w.petscVec l hl (2 + k) (by omega), hidx,
    Int.toNat_natCast, petscVec_verts w m cell hw p hp k hk]

/-- End to end: on every rank the local vertices of a cell, owned or ghost, decode to the vertices the
file gives for that cell (within the width of a record), in the same order; every local vertex is a
vertex of a local cell, and is stored once, in increasing order of natural numbers. -/
theorem C67_vertices (r : Nat) (hr : r < w.ranks)
    (hne : ∃ l < w.ghosted r, ∃ k < w.L.maxVerts, ∃ c : Nat, w.natural r l = c ∧ 0 ≤ m.vert c k) :
    ∃ vs, w.vertices r = .ok vs
      ∧ (∀ l < w.ghosted r, ∀ c : Nat, w.natural r l = c →
        (vs.cell l).num = (present (m.vert c) w.L.maxVerts).length
        ∧ ∀ j < (vs.cell l).num, (vs.cell l).ids j < vs.num
          ∧ (present (m.vert c) w.L.maxVerts)[j]? = some (vs.natural ((vs.cell l).ids j)))
      ∧ (∀ g h, g < h → h < vs.num → vs.natural g < vs.natural h)
      ∧ (∀ g < vs.num, ∃ l < w.ghosted r, ∃ c : Nat, w.natural r l = c
        ∧ ∃ k < w.L.maxVerts, 0 ≤ m.vert c k ∧ vs.natural g = m.vert c k) := by
  have hrec : ∀ l < w.ghosted r, ∀ k < w.L.maxVerts,
      w.records r (w.L.vertPos l k) = m.vert (w.natural r l).toNat k + 1 := by
    intro l hl k hk
    obtain ⟨p, hp, e1, e2⟩ := petscOf_lt w m cell hw r hr l hl
    rw [records_verts w m cell hw r hr l hl p hp e1 k hk, e2, Int.toNat_natCast]
  obtain ⟨vs, e, hR⟩ := renumberVertices_spec w.L (w.ghosted r) w.sort hw.sort (w.records r)
    (fun l => m.vert (w.natural r l).toNat) hrec (by
      obtain ⟨l, hl, k, hk, c, hc, h⟩ := hne
      refine ⟨l, hl, k, hk, ?_⟩
      show 0 ≤ m.vert (w.natural r l).toNat k
      rw [hc, Int.toNat_natCast]
      exact h)
  refine ⟨vs, e, ?_, hR.strict, ?_⟩
  · intro l hl c hc
    have h1 := hR.num l hl
    have h2 := hR.decode l hl
    simp only [hc, Int.toNat_natCast] at h1 h2
    exact ⟨h1, h2⟩
  · intro g hg
    obtain ⟨l, hl, k, hk, h1, h2⟩ := hR.used g hg
    obtain ⟨p, _, _, e2⟩ := petscOf_lt w m cell hw r hr l hl
    refine ⟨l, hl, cell p, e2, k, hk, ?_⟩
    simp only [e2, Int.toNat_natCast] at h1 h2
    exact ⟨h1, h2⟩

end Pipeline

/-- Local vertices have the coordinates of their natural vertices. -/
theorem C67_coordinates {α : Type} (num : Nat) (natural : Nat → ℤ) (coords old : Nat → Nat → α)
    (i : Nat) (hi : i < num) (k : Nat) (hk : k < 3) :
    localCoords num natural coords old i k = coords (natural i).toNat k :=
  localCoords_apply num natural coords old i hi k hk

end TDy.UGrid.Props
