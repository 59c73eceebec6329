import Verif.Proofs.MeshInternal

/-!
# Imported meshes: numbering of faces (C63), cells at a vertex (C64), internal faces (C113)
-/

namespace TDy.Custom.Props

open TDy.Custom TDy.Custom.Spec TDy.Custom.Proofs

/-! ## A mesh that meets the hypotheses -/

namespace CustomWitness

/-- Three tetrahedra; the first two are owned, the third is a ghost.  Cells 0 and 1 have face {0,1,2} in common,
cells 1 and 2 face {0,1,4}. -/
def mesh : UG where
  ng := 3
  nl := 2
  nv := fun _ => 4
  cv := fun i k => (([[0, 1, 2, 3], [0, 1, 2, 4], [0, 1, 4, 5]] : List (List Int)).getD i []).getD k (-1)
  nnb := fun i => if i = 0 then 1 else 2
  nb := fun i d => if i = 0 then 1 else if d = 0 then 0 else -2

instance (u : UG) (i j : Nat) : Decidable (Share u i j) :=
  decidable_of_iff (∃ k ∈ List.range (u.nf i), ∃ l ∈ List.range (u.nf j), faceSet u i k = faceSet u j l) (by
    unfold Share
    constructor
    · rintro ⟨k, hk, l, hl, e⟩
      exact ⟨k, l, List.mem_range.1 hk, List.mem_range.1 hl, e⟩
    · rintro ⟨k, l, hk, hl, e⟩
      exact ⟨k, List.mem_range.2 hk, l, List.mem_range.2 hl, e⟩)

theorem shared {i j k l : Nat} (hi : i < 3) (hj : j < 3) (hij : i ≠ j) (hk : k < 4) (hl : l < 4)
    (e : faceSet mesh i k = faceSet mesh j l) : (i = 0 ∧ j = 1 ∧ k = 3 ∧ l = 3) ∨ (i = 1 ∧ j = 0 ∧ k = 3 ∧ l = 3)
      ∨ (i = 1 ∧ j = 2 ∧ k = 0 ∧ l = 3) ∨ (i = 2 ∧ j = 1 ∧ k = 3 ∧ l = 0) := by
  interval_cases i <;> interval_cases j <;> first
    | omega
    | (interval_cases k <;> interval_cases l <;> first | omega | exact absurd e (by decide))

theorem conforming : Conforming mesh := by
  refine ⟨by decide, by decide, by decide, by decide, by decide, by decide, by decide, ?_, ?_⟩
  · have h : ∀ i < 3, ∀ j < 3, i ≠ j → ∀ k < 4, ∀ k' < 4, ∀ l < 4, ∀ l' < 4,
        faceSet mesh i k = faceSet mesh j l → faceSet mesh i k' = faceSet mesh j l' → k = k' ∧ l = l' := by
      intro i hi j hj hij k hk k' hk' l hl l' hl' e e'
      have h1 := shared hi hj hij hk hl e
      have h2 := shared hi hj hij hk' hl' e'
      omega
    exact h
  · have h : ∀ i < 3, ∀ j < 3, ∀ c < 3, i ≠ j → j ≠ c → i ≠ c → ∀ k < 4, ∀ l < 4, ∀ m < 4,
        faceSet mesh i k = faceSet mesh j l → faceSet mesh j l ≠ faceSet mesh c m := by
      intro i hi j hj c hc hij hjc hic k hk l hl m hm e e'
      have h1 := shared hi hj hij hk hl e
      have h2 := shared hj hc hjc hl hm e'
      omega
    exact h

theorem marked : Marked mesh := by
  unfold Marked; decide

end CustomWitness

/-! ## C63 -/

/-- C63, the part that holds: on every conforming mesh the removal of duplicates and the renumbering succeed, and what
UpdateMapsC2F_F2C_F2V computes numbers every face once.  Missing: the caller gets none of the new face-to-cell map (see
`C63_violated`); two ghosts that share a face keep two numbers for it. -/
theorem C63_numbered_once_partial (u : UG) (hc : Conforming u) :
    ∃ m c2f, removeDuplicates u (setupMaps u) = .ok m ∧ remap u (compact u m) m.c2f = .ok c2f
      ∧ NumberedOnce u (compact u m).num c2f (compact u m).f2v (compact u m).f2c := by
  obtain ⟨m, e, h⟩ := removeDuplicates_ok hc
  obtain ⟨c, e', hr⟩ := remap_ok hc h
  exact ⟨m, c, e, e', numbered hc h hr⟩

example : ∃ m c2f, removeDuplicates CustomWitness.mesh (setupMaps CustomWitness.mesh) = .ok m
    ∧ remap CustomWitness.mesh (compact CustomWitness.mesh m) m.c2f = .ok c2f
    ∧ NumberedOnce CustomWitness.mesh (compact CustomWitness.mesh m).num c2f (compact CustomWitness.mesh m).f2v
        (compact CustomWitness.mesh m).f2c :=
  C63_numbered_once_partial _ CustomWitness.conforming

/-- C63 does not hold of the caller: on every conforming mesh in which some owned cell has a neighbour with a larger
number, building the faces reads the face-to-cell map after it was freed. -/
theorem C63_violated (u : UG) (hc : Conforming u) (cap : Nat)
    (h : ∃ i < u.nl, ∃ d < u.nnb i, i < (u.nb i d).natAbs) : setupFaces cap u = .ub := by
  obtain ⟨m, c, e, e', _⟩ := C63_numbered_once_partial u hc
  have hread : readsFaceToCell u = true := by
    obtain ⟨i, hi, d, hd, hlt⟩ := h
    have hf : 0 < u.nf i := by
      rcases type_cases hc (Nat.lt_of_lt_of_le hi hc.owned) with h | h | h | h <;> omega
    unfold readsFaceToCell
    rw [List.any_eq_true]
    refine ⟨i, List.mem_range.2 hi, ?_⟩
    rw [Bool.and_eq_true, List.any_eq_true]
    exact ⟨by simpa using hf, d, List.mem_range.2 hd, by simpa using hlt⟩
  unfold setupFaces
  rw [e]
  simp only [e', hread, if_true]
  rcases setupV2C_outcome cap u with ⟨s, es, _⟩ | ⟨es, _⟩ <;> rw [es]

example : setupFaces 24 CustomWitness.mesh = .ub :=
  C63_violated _ CustomWitness.conforming 24 ⟨0, by decide, 0, by decide, by decide⟩

/-- A rank with a single cell, or whose owned cells have no neighbour of a larger number, is set up. -/
theorem C63_isolated_partial (u : UG) (hc : Conforming u) (cap : Nat)
    (h : ∀ i < u.nl, ∀ d < u.nnb i, ¬ i < (u.nb i d).natAbs) (hv : ∀ v : Nat, (cellsAt u v).length ≤ cap) :
    ∃ N c2f f2v f2c, setupFaces cap u = .ok (N, c2f) ∧ NumberedOnce u N c2f f2v f2c := by
  obtain ⟨m, c, e, e', hn⟩ := C63_numbered_once_partial u hc
  have hread : readsFaceToCell u = false := by
    rw [Bool.eq_false_iff]
    intro hh
    unfold readsFaceToCell at hh
    rw [List.any_eq_true] at hh
    obtain ⟨i, hi, hh⟩ := hh
    rw [Bool.and_eq_true, List.any_eq_true] at hh
    obtain ⟨_, d, hd, hlt⟩ := hh
    exact h i (List.mem_range.1 hi) d (List.mem_range.1 hd) (by simpa using hlt)
  refine ⟨_, c, _, _, ?_, hn⟩
  unfold setupFaces
  rw [e]
  simp only [e', hread]
  rcases setupV2C_outcome cap u with ⟨s, es, _⟩ | ⟨_, v, hlt⟩
  · rw [es]; rfl
  · exact absurd (hv v) (by omega)

/-- A single tetrahedron. -/
def lone : UG := ⟨1, 1, fun _ => 4, fun _ k => k, fun _ => 0, fun _ _ => 0⟩

example : ∃ N c2f f2v f2c, setupFaces 24 lone = .ok (N, c2f) ∧ NumberedOnce lone N c2f f2v f2c := by
  refine C63_isolated_partial lone ⟨by decide, by decide, ?_, by decide, by decide, by decide, ?_, ?_, ?_⟩ 24
    (by decide) ?_
  · intro i _ k _ l _ e
    have e' : (k : Int) = l := e
    omega
  · intro i hi j hj hne
    have : i < 1 := hi
    have : j < 1 := hj
    omega
  · intro i hi j hj hne
    have : i < 1 := hi
    have : j < 1 := hj
    omega
  · intro i hi j hj c _ hne
    have : i < 1 := hi
    have : j < 1 := hj
    omega
  · intro v
    unfold cellsAt
    rw [show List.range lone.ng = [0] from rfl]
    simp only [List.flatMap_cons, List.flatMap_nil, List.append_nil, List.length_map]
    exact (List.length_filter_le _ _).trans (by simp [lone])

/-! ## C64 -/

/-- The check of SetupMap_V2C never reports anything, whatever the mesh and the capacity. -/
theorem C64_never_reports (u : UG) (cap : Nat) : ∀ s, setupV2C cap u ≠ .err s := by
  intro s hs
  rcases setupV2C_outcome cap u with ⟨s', e, _⟩ | ⟨e, _⟩ <;> rw [e] at hs <;> cases hs

/-- C64 fails: if more cells than the capacity meet at some vertex, the table is written beyond its last row. -/
theorem C64_violated (u : UG) (cap : Nat) (h : ∃ v : Nat, cap < (cellsAt u v).length) : setupV2C cap u = .ub := by
  rcases setupV2C_outcome cap u with ⟨s, _, inv⟩ | ⟨e, _⟩
  · obtain ⟨v, hv⟩ := h
    have := inv.fits v
    rw [seen_corners] at this
    omega
  · exact e

/-- C64, the part that holds: within the capacity the table lists, for every vertex, the cells that have it as a corner,
in increasing order. -/
theorem C64_table_partial (u : UG) (cap : Nat) (h : ∀ v : Nat, (cellsAt u v).length ≤ cap) :
    ∃ s, setupV2C cap u = .ok s ∧ (∀ v : Nat, s.num v = (cellsAt u v).length)
      ∧ ∀ v r (hr : r < (cellsAt u (v : Nat)).length), s.tab r v = ((cellsAt u v)[r] : Nat) := by
  rcases setupV2C_outcome cap u with ⟨s, e, inv⟩ | ⟨_, v, hv⟩
  · refine ⟨s, e, ?_, ?_⟩
    · intro v; rw [inv.num, seen_corners]
    · intro v r hr
      have := inv.tab v r
      simp only [seen_corners] at this
      rw [this, dif_pos hr]
  · exact absurd (h v) (by omega)

/-- 25 tetrahedra around vertex 0. -/
def crowd : UG where
  ng := 25
  nl := 25
  nv := fun _ => 4
  cv := fun i k => if k = 0 then 0 else (3*i + k : Nat)
  nnb := fun _ => 0
  nb := fun _ _ => 0

example : setupV2C 24 crowd = .ub := C64_violated crowd 24 ⟨0, by decide⟩

example : ∃ s, setupV2C 24 CustomWitness.mesh = .ok s ∧ s.num 0 = 3 ∧ s.tab 2 0 = 2 := by
  have hlen : ∀ v : Nat, (cellsAt CustomWitness.mesh v).length ≤ 24 := by
    intro v
    unfold cellsAt
    rw [show List.range CustomWitness.mesh.ng = [0, 1, 2] from rfl]
    simp only [List.flatMap_cons, List.flatMap_nil, List.length_append, List.length_map, List.length_nil]
    have : ∀ i, ((List.range (CustomWitness.mesh.nv i)).filter
        (fun k => decide (CustomWitness.mesh.cv i k = (v : Int)))).length ≤ 4 :=
      fun i => (List.length_filter_le _ _).trans (by simp [CustomWitness.mesh])
    have h0 := this 0
    have h1 := this 1
    have h2 := this 2
    omega
  obtain ⟨s, e, hn, ht⟩ := C64_table_partial CustomWitness.mesh 24 hlen
  exact ⟨s, e, (hn 0).trans (by decide), (ht 0 2 (by decide)).trans (by decide)⟩

/-! ## C113 -/

/-- C113, given a readable face-to-cell map: every internal face of an owned cell is stored once, with its two cells in
increasing order, its number and its number of vertices, and as many are stored as were counted.  Missing: in the
program the map is not readable (`C63_violated`). -/
theorem C113_connections_partial (u : UG) (hc : Conforming u) (hm : Marked u) (N : Nat)
    (c2f f2v f2c : Nat → Nat → Int) (hn : NumberedOnce u N c2f f2v f2c) :
    ∃ s, createInternal u c2f f2c = .ok s ∧ s.num = countConns u
      ∧ (∀ n < s.num, ∃ i c k l : Nat, i < u.nl ∧ c < u.ng ∧ i < c ∧ s.left n = i ∧ s.right n = c
          ∧ k < u.nf i ∧ l < u.nf c ∧ faceSet u i k = faceSet u c l
          ∧ s.id n = c2f k i ∧ s.conn n = c2f k i ∧ s.nverts n = (faceSet u i k).card)
      ∧ (∀ i c : Nat, i < u.nl → c < u.ng → i < c → Share u i c →
          ∃! n, n < s.num ∧ s.left n = i ∧ s.right n = c) := by
  obtain ⟨s, e, inv⟩ := createInternal_ok hc hn
  have hmem : ∀ n (h : n < ((sides u).filter (upper u)).length),
      (((sides u).filter (upper u))[n]).1 < u.nl
        ∧ (((sides u).filter (upper u))[n]).2 < u.nnb (((sides u).filter (upper u))[n]).1
        ∧ (((sides u).filter (upper u))[n]).1
            < (u.nb (((sides u).filter (upper u))[n]).1 (((sides u).filter (upper u))[n]).2).natAbs := by
    intro n h
    obtain ⟨h1, h2⟩ := List.mem_filter.1 (List.getElem_mem h)
    have h3 := mem_sides.1 h1
    exact ⟨h3.1, h3.2, by simpa [upper] using h2⟩
  refine ⟨s, e, by rw [inv.num, countConns_eq hm], ?_, ?_⟩
  · intro n hns
    rw [inv.num] at hns
    obtain ⟨a1, a2, k, l, hk, hl, e1, e2, e3, e4⟩ := inv.at_ n hns
    obtain ⟨b1, b2, b3⟩ := hmem n hns
    exact ⟨_, _, k, l, b1, (hc.range _ b1 _ b2).1, b3, a1, a2, hk, hl, e1, e2, e3, e4⟩
  · intro i c hi hcg hlt hsh
    obtain ⟨d, hd, hdc⟩ := hc.complete i hi c hcg (by omega) hsh
    have hin : (i, d) ∈ (sides u).filter (upper u) :=
      List.mem_filter.2 ⟨mem_sides.2 ⟨hi, hd⟩, by
        simp only [upper, decide_eq_true_eq, hdc]; exact hlt⟩
    obtain ⟨n, hnl, hne⟩ := List.getElem_of_mem hin
    refine ⟨n, ⟨by rw [inv.num]; exact hnl, ?_, ?_⟩, ?_⟩
    · rw [(inv.at_ n hnl).left, hne]
    · rw [(inv.at_ n hnl).right, hne, hdc]
    · rintro n' ⟨h1, h2, h3⟩
      rw [inv.num] at h1
      rw [(inv.at_ n' h1).left] at h2
      rw [(inv.at_ n' h1).right] at h3
      obtain ⟨b1, b2, _⟩ := hmem n' h1
      have hnd : ((sides u).filter (upper u)).Nodup := (nodup_sides u).filter _
      refine (List.Nodup.getElem_inj_iff hnd (hi := h1) (hj := hnl)).1 ?_
      rw [hne]
      generalize ((sides u).filter (upper u))[n'] = q at h2 h3 b1 b2
      obtain ⟨a, b⟩ := q
      simp only [] at h2 h3 b1 b2
      have : a = i := by omega
      subst this
      have := hc.once a hi b b2 d hd (by omega)
      rw [this]

example : ∃ m c2f s, removeDuplicates CustomWitness.mesh (setupMaps CustomWitness.mesh) = .ok m
    ∧ createInternal CustomWitness.mesh c2f (compact CustomWitness.mesh m).f2c = .ok s ∧ s.num = 2 := by
  obtain ⟨m, c, e, _, hn⟩ := C63_numbered_once_partial _ CustomWitness.conforming
  obtain ⟨s, es, h, _⟩ := C113_connections_partial _ CustomWitness.conforming CustomWitness.marked _ _ _ _ hn
  exact ⟨m, c, s, e, es, h.trans (by decide)⟩

end TDy.Custom.Props
