import Verif.Spec.MeshCustom
import Verif.Props.Topology
import Verif.Proofs.MeshVertexCells
import Mathlib.Tactic.IntervalCases

/-!
# Faces of an imported mesh: first numbering and the search for the common face
-/

namespace TDy.Custom.Proofs

open TDy.Custom TDy.Custom.Spec TDy.Mesh TDy.Mesh.Proofs TDy.Topology

/-- The number of faces of the cells below `i`. -/
def off (u : UG) : Nat → Nat
  | 0 => 0
  | i + 1 => off u i + u.nf i

theorem off_le (u : UG) {i n : Nat} (h : i < n) : off u i + u.nf i ≤ off u n := by
  induction n with
  | zero => omega
  | succ n ih =>
    show _ ≤ off u n + u.nf n
    rcases Nat.lt_succ_iff_lt_or_eq.1 h with h' | h'
    · have := ih h'; omega
    · subst h'; exact Nat.le_refl _

theorem off_inj (u : UG) {i j k l : Nat} (hk : k < u.nf i) (hl : l < u.nf j) (h : off u i + k = off u j + l) :
    i = j ∧ k = l := by
  rcases Nat.lt_trichotomy i j with hij | hij | hij
  · have := off_le u hij; omega
  · subst hij; exact ⟨rfl, by omega⟩
  · have := off_le u hij; omega

theorem off_surj (u : UG) {n f : Nat} (h : f < off u n) : ∃ i k, i < n ∧ k < u.nf i ∧ f = off u i + k := by
  induction n with
  | zero => exact absurd h (Nat.not_lt_zero _)
  | succ n ih =>
    by_cases h' : f < off u n
    · obtain ⟨i, k, hi, hk, e⟩ := ih h'
      exact ⟨i, k, by omega, hk, e⟩
    · have : f < off u n + u.nf n := h
      exact ⟨n, f - off u n, by omega, by omega, by omega⟩

/-- Face `l` of cell `i` has been numbered when `n` cells and `k` faces of cell `n` are done. -/
def Done (u : UG) (n k i l : Nat) : Prop := l < u.nf i ∧ (i < n ∨ i = n ∧ l < k)

theorem Done.lt {u : UG} {n k i l : Nat} (h : Done u n k i l) : off u i + l < off u n + k := by
  rcases h with ⟨h1, h2 | ⟨rfl, h2⟩⟩
  · have := off_le u h2; omega
  · omega

structure SetupInv (u : UG) (n k : Nat) (m : Maps) : Prop where
  count : m.count = off u n + k
  c2f : ∀ i l, Done u n k i l → m.c2f l i = (off u i + l : Nat)
  f2c : ∀ i l, Done u n k i l → m.f2c 0 (off u i + l) = i
  rest : ∀ f, off u n + k ≤ f → m.f2c 0 f = -1
  side : ∀ f, m.f2c 1 f = -1
  f2v : ∀ i l, Done u n k i l → ∀ v < u.nvf i l, m.f2v v (off u i + l) = u.cv i ((u.corners i l).getD v 0)

theorem fill_f2v (n f : Nat) (g : Nat → Int) (a : Nat → Nat → Int) (v f' : Nat) :
    forN n (fun v a => wr2 a v f (g v)) a v f' = if v < n ∧ f' = f then g v else a v f' := by
  induction n with
  | zero => simp [forN]
  | succ n ih =>
    simp only [forN, wr2]
    by_cases h : v = n ∧ f' = f
    · rw [if_pos h, if_pos ⟨by omega, h.2⟩, h.1]
    · rw [if_neg h, ih]
      by_cases h' : v < n ∧ f' = f
      · rw [if_pos h', if_pos ⟨by omega, h'.2⟩]
      · rw [if_neg h', if_neg (by rintro ⟨h1, h2⟩; exact h' ⟨by by_contra hh; exact h ⟨by omega, h2⟩, h2⟩)]

theorem SetupInv.step {u : UG} {n k : Nat} {m : Maps} (h : SetupInv u n k m) (hk : k < u.nf n) :
    SetupInv u n (k + 1) (setupFace u n k m) := by
  have split : ∀ i l, Done u n (k + 1) i l → (i = n ∧ l = k) ∨ Done u n k i l := by
    rintro i l ⟨h1, h2 | ⟨rfl, h2⟩⟩
    · exact .inr ⟨h1, .inl h2⟩
    · by_cases hlk : l = k
      · exact .inl ⟨rfl, hlk⟩
      · exact .inr ⟨h1, .inr ⟨rfl, by omega⟩⟩
  have notNew : ∀ i l, Done u n k i l → ¬ (l = k ∧ i = n) := by
    rintro i l ⟨_, h2 | ⟨_, h2⟩⟩ ⟨h3, h4⟩ <;> omega
  refine ⟨?_, ?_, ?_, ?_, ?_, ?_⟩
  · show m.count + 1 = _
    rw [h.count]; omega
  · intro i l hd
    show wr2 m.c2f k n (m.count : Int) l i = _
    rcases split i l hd with ⟨rfl, rfl⟩ | hd'
    · rw [wr2_same, h.count]
    · rw [wr2_other _ _ (notNew i l hd'), h.c2f i l hd']
  · intro i l hd
    show wr2 m.f2c 0 m.count (n : Int) 0 (off u i + l) = _
    rcases split i l hd with ⟨rfl, rfl⟩ | hd'
    · rw [h.count, wr2_same]
    · have := hd'.lt
      rw [wr2_other _ _ (by rw [h.count]; omega), h.f2c i l hd']
  · intro f hf
    show wr2 m.f2c 0 m.count (n : Int) 0 f = _
    rw [wr2_other _ _ (by rw [h.count]; omega), h.rest f (by omega)]
  · intro f
    show wr2 m.f2c 0 m.count (n : Int) 1 f = _
    rw [wr2_other _ _ (by omega), h.side]
  · intro i l hd v hv
    show forN (u.nvf n k) (fun v a => wr2 a v m.count (u.cv n ((u.corners n k).getD v 0))) m.f2v v (off u i + l) = _
    rw [fill_f2v (u.nvf n k) m.count (fun v => u.cv n ((u.corners n k).getD v 0))]
    rcases split i l hd with ⟨rfl, rfl⟩ | hd'
    · rw [if_pos ⟨hv, h.count.symm⟩]
    · have := hd'.lt
      rw [if_neg (by rw [h.count]; omega), h.f2v i l hd' v hv]

/-- The first numbering. -/
theorem setupMaps_spec (u : UG) : SetupInv u u.ng 0 (setupMaps u) := by
  unfold setupMaps
  refine forN_invariant u.ng _ _ (fun n (m : Maps) => SetupInv u n 0 m) ?_ ?_
  · have no : ∀ i l, ¬ Done u 0 0 i l := by rintro i l ⟨_, h | h⟩ <;> omega
    exact ⟨rfl, fun i l h => absurd h (no i l), fun i l h => absurd h (no i l), fun _ _ => rfl, fun _ => rfl,
      fun i l h => absurd h (no i l)⟩
  · intro n m _ h
    have h' : SetupInv u n (u.nf n) (forN (u.nf n) (fun k m => setupFace u n k m) m) :=
      forN_invariant (u.nf n) _ m (fun k (m : Maps) => SetupInv u n k m) h (fun k m hk hm => hm.step hk)
    have conv : ∀ i l, Done u (n + 1) 0 i l → Done u n (u.nf n) i l := by
      rintro i l ⟨h1, h2 | h2⟩
      · by_cases hin : i = n
        · subst hin; exact ⟨h1, .inr ⟨rfl, h1⟩⟩
        · exact ⟨h1, .inl (by omega)⟩
      · omega
    exact ⟨h'.count, fun i l hd => h'.c2f i l (conv i l hd), fun i l hd => h'.f2c i l (conv i l hd), h'.rest,
      h'.side, fun i l hd => h'.f2v i l (conv i l hd)⟩

/-! ## Tables -/

theorem type_cases {u : UG} (hc : Conforming u) {i : Nat} (hi : i < u.ng) :
    (u.ct i = tet ∧ u.nv i = 4 ∧ u.nf i = 4) ∨ (u.ct i = pyramid ∧ u.nv i = 5 ∧ u.nf i = 5)
      ∨ (u.ct i = wedge ∧ u.nv i = 6 ∧ u.nf i = 5) ∨ (u.ct i = hex ∧ u.nv i = 8 ∧ u.nf i = 6) := by
  unfold UG.nf UG.ct
  rcases hc.types i hi with h | h | h | h <;> rw [h] <;> decide

theorem known {u : UG} (hc : Conforming u) {i : Nat} (hi : i < u.ng) :
    u.ct i = tet ∨ u.ct i = pyramid ∨ u.ct i = wedge ∨ u.ct i = hex := by
  rcases type_cases hc hi with h | h | h | h <;> simp [h.1]

theorem nf_le {u : UG} (hc : Conforming u) {i : Nat} (hi : i < u.ng) : u.nf i ≤ 6 ∧ u.nf i ≤ u.nv i := by
  rcases type_cases hc hi with h | h | h | h <;> omega

theorem corners_mem {u : UG} {i k : Nat} (hk : k < u.nf i) : u.corners i k ∈ Topology.Spec.faces (u.ct i) :=
  List.mem_map.2 ⟨k, List.mem_range.2 hk, rfl⟩

theorem corners_spec {u : UG} (hc : Conforming u) {i k : Nat} (hi : i < u.ng) (hk : k < u.nf i) :
    (u.corners i k).length = u.nvf i k ∧ (u.corners i k).Nodup ∧ (∀ a ∈ u.corners i k, a < u.nv i)
      ∧ 0 < u.nvf i k ∧ u.nvf i k ≤ 4 := by
  unfold UG.corners UG.nvf
  rcases type_cases hc hi with ⟨h, e, f⟩ | ⟨h, e, f⟩ | ⟨h, e, f⟩ | ⟨h, e, f⟩ <;> rw [h, e] <;> rw [f] at hk <;>
    interval_cases k <;> decide

/-- Different faces of a cell have different corners. -/
theorem corners_differ {u : UG} (hc : Conforming u) {i k l : Nat} (hi : i < u.ng) (hk : k < u.nf i) (hl : l < u.nf i)
    (h : ∀ a, a ∈ u.corners i k ↔ a ∈ u.corners i l) : k = l := by
  have h' : (u.corners i k).toFinset = (u.corners i l).toFinset := by
    ext a; simpa using h a
  revert h'
  unfold UG.corners
  rcases type_cases hc hi with ⟨e, _, f⟩ | ⟨e, _, f⟩ | ⟨e, _, f⟩ | ⟨e, _, f⟩ <;> rw [e] <;> rw [f] at hk hl <;>
    interval_cases k <;> interval_cases l <;> decide

theorem faceSet_card {u : UG} (hc : Conforming u) {i k : Nat} (hi : i < u.ng) (hk : k < u.nf i) :
    (faceSet u i k).card = u.nvf i k := by
  obtain ⟨h1, h2, h3, _⟩ := corners_spec hc hi hk
  unfold faceSet
  rw [List.toFinset_card_of_nodup, List.length_map, h1]
  refine List.Nodup.map_on ?_ h2
  intro a ha b hb e
  exact hc.distinct i hi a (h3 a ha) b (h3 b hb) e

theorem faceSet_inj {u : UG} (hc : Conforming u) {i k l : Nat} (hi : i < u.ng) (hk : k < u.nf i) (hl : l < u.nf i)
    (h : faceSet u i k = faceSet u i l) : k = l := by
  have key : ∀ k l, k < u.nf i → l < u.nf i → faceSet u i k = faceSet u i l →
      ∀ a, a ∈ u.corners i k → a ∈ u.corners i l := by
    intro k l hk hl h a ha
    have : u.cv i a ∈ faceSet u i l := by
      rw [← h]; exact List.mem_toFinset.2 (List.mem_map.2 ⟨a, ha, rfl⟩)
    obtain ⟨b, hb, e⟩ := List.mem_map.1 (List.mem_toFinset.1 this)
    have := hc.distinct i hi b ((corners_spec hc hi hl).2.2.1 b hb) a ((corners_spec hc hi hk).2.2.1 a ha) e
    rwa [← this]
  exact corners_differ hc hi hk hl (fun a => ⟨key k l hk hl h a, key l k hl hk h.symm a⟩)

/-! ## The search for the common face -/

/-- The rows of `face_to_vertex` at the id of a face of a cell are the vertices of that face, in some order. -/
def Good (u : UG) (c2f f2v : Nat → Nat → Int) : Prop :=
  ∀ i < u.ng, ∀ k < u.nf i, ∀ x, (∃ v < u.nvf i k, f2v v (c2f k i).toNat = x) ↔ x ∈ faceSet u i k

theorem loop_all (p : Nat → Bool) (n : Nat) :
    forN n (fun v (s : Bool × Bool) => if s.2 then s else (p v, !p v)) (false, false)
      = if ∀ v < n, p v = true then (decide (0 < n), false) else (false, true) := by
  induction n with
  | zero => simp [forN]
  | succ n ih =>
    show (if (forN n _ _ : Bool × Bool).2 then _ else _) = _
    rw [ih]
    by_cases h : ∀ v < n, p v = true
    · rw [if_pos h]
      by_cases hn : p n = true
      · rw [if_pos (show ∀ v < n + 1, p v = true from fun v hv => by
          rcases Nat.lt_succ_iff_lt_or_eq.1 hv with h' | h'
          · exact h v h'
          · rw [h']; exact hn)]
        simp [hn]
      · rw [if_neg (show ¬ ∀ v < n + 1, p v = true from fun hh => hn (hh n (by omega)))]
        simp [hn]
    · rw [if_neg h, if_neg (show ¬ ∀ v < n + 1, p v = true from fun hh => h (fun v hv => hh v (by omega)))]
      rfl

theorem loop_count (q : Nat → Bool) (n : Nat) :
    (∀ v < n, q v = true) ∧ forN n (fun v (s : Nat × Bool) => if s.2 then s else
        if q v then (s.1 + 1, false) else (s.1, true)) (0, false) = (n, false)
      ∨ (¬ ∀ v < n, q v = true) ∧ (forN n (fun v (s : Nat × Bool) => if s.2 then s else
        if q v then (s.1 + 1, false) else (s.1, true)) (0, false)).2 = true
        ∧ (forN n (fun v (s : Nat × Bool) => if s.2 then s else
        if q v then (s.1 + 1, false) else (s.1, true)) (0, false)).1 < n := by
  induction n with
  | zero => left; exact ⟨fun v hv => absurd hv (Nat.not_lt_zero v), rfl⟩
  | succ n ih =>
    simp only [forN]
    rcases ih with ⟨h, e⟩ | ⟨h, e, l⟩
    · rw [e]
      by_cases hn : q n = true
      · left
        refine ⟨fun v hv => ?_, by simp [hn]⟩
        rcases Nat.lt_succ_iff_lt_or_eq.1 hv with h' | h'
        · exact h v h'
        · rw [h']; exact hn
      · right
        exact ⟨fun hh => hn (hh n (by omega)), by simp [hn], by simp [hn]⟩
    · right
      refine ⟨fun hh => h (fun v hv => hh v (by omega)), ?_, ?_⟩
      · rw [if_pos e]; exact e
      · rw [if_pos e]; omega

theorem allPresent_iff {u : UG} {m : Maps} (hc : Conforming u) (hg : Good u m.c2f m.f2v) {i i2 k : Nat}
    (hi : i < u.ng) (hk : k < u.nf i) :
    allPresent u m i i2 k = true ↔ ∀ x ∈ faceSet u i k, ∃ w < u.nv i2, u.cv i2 w = x := by
  unfold allPresent
  rw [loop_all (fun v => (List.range (u.nv i2)).any (fun w => m.f2v v (m.c2f k i).toNat == u.cv i2 w))]
  have hpos := (corners_spec hc hi hk).2.2.2.1
  have key : (∀ v < u.nvf i k, ((List.range (u.nv i2)).any (fun w => m.f2v v (m.c2f k i).toNat == u.cv i2 w)) = true)
      ↔ ∀ x ∈ faceSet u i k, ∃ w < u.nv i2, u.cv i2 w = x := by
    simp only [List.any_eq_true, List.mem_range, beq_iff_eq]
    constructor
    · intro h x hx
      obtain ⟨v, hv, e⟩ := (hg i hi k hk x).2 hx
      obtain ⟨w, hw, e'⟩ := h v hv
      exact ⟨w, hw, by rw [← e', e]⟩
    · intro h v hv
      obtain ⟨w, hw, e⟩ := h _ ((hg i hi k hk _).1 ⟨v, hv, rfl⟩)
      exact ⟨w, hw, e.symm⟩
  by_cases h : ∀ v < u.nvf i k, ((List.range (u.nv i2)).any (fun w => m.f2v v (m.c2f k i).toNat == u.cv i2 w)) = true
  · rw [if_pos h]
    exact ⟨fun _ => key.1 h, fun _ => by simpa using hpos⟩
  · rw [if_neg h]
    exact ⟨fun hh => absurd hh (by simp), fun hh => absurd (key.2 hh) h⟩

theorem matches_iff {u : UG} {m : Maps} (hc : Conforming u) (hg : Good u m.c2f m.f2v) {i i2 k k2 : Nat}
    (hi : i < u.ng) (hk : k < u.nf i) (hi2 : i2 < u.ng) (hk2 : k2 < u.nf i2) :
    (u.nvf i k == u.nvf i2 k2 && matches_ u m i i2 k k2 == u.nvf i k) = true ↔ faceSet u i k = faceSet u i2 k2 := by
  have hcard := faceSet_card hc hi hk
  have hcard2 := faceSet_card hc hi2 hk2
  rw [Bool.and_eq_true, beq_iff_eq, beq_iff_eq]
  have key : matches_ u m i i2 k k2 = u.nvf i k ↔ faceSet u i k ⊆ faceSet u i2 k2 := by
    have sub : (∀ v < u.nvf i k, ((List.range (u.nvf i2 k2)).any
        (fun w => m.f2v v (m.c2f k i).toNat == m.f2v w (m.c2f k2 i2).toNat)) = true)
          ↔ faceSet u i k ⊆ faceSet u i2 k2 := by
      simp only [List.any_eq_true, List.mem_range, beq_iff_eq]
      constructor
      · intro h x hx
        obtain ⟨v, hv, e⟩ := (hg i hi k hk x).2 hx
        obtain ⟨w, hw, e'⟩ := h v hv
        exact (hg i2 hi2 k2 hk2 x).1 ⟨w, hw, by rw [← e', e]⟩
      · intro h v hv
        obtain ⟨w, hw, e⟩ := (hg i2 hi2 k2 hk2 _).2 (h ((hg i hi k hk _).1 ⟨v, hv, rfl⟩))
        exact ⟨w, hw, e.symm⟩
    unfold matches_
    rcases loop_count (fun v => (List.range (u.nvf i2 k2)).any
        (fun w => m.f2v v (m.c2f k i).toNat == m.f2v w (m.c2f k2 i2).toNat)) (u.nvf i k) with ⟨h, e⟩ | ⟨h, _, l⟩
    · rw [e]; exact ⟨fun _ => sub.1 h, fun _ => rfl⟩
    · exact ⟨fun hh => absurd hh (Nat.ne_of_lt l), fun hh => absurd (sub.2 hh) h⟩
  rw [key]
  constructor
  · rintro ⟨h1, h2⟩
    exact Finset.eq_of_subset_of_card_le h2 (by omega)
  · intro h
    exact ⟨by rw [← hcard, ← hcard2, h], h ▸ Finset.Subset.refl _⟩

/-- The only member that satisfies the predicate is found. -/
theorem find_unique (n : Nat) (p : Nat → Bool) (k : Nat) (hk : k < n) (hp : p k = true)
    (hu : ∀ l < n, p l = true → l = k) : (List.range n).find? p = some k := by
  cases h : (List.range n).find? p with
  | none =>
    have := List.find?_eq_none.1 h k (List.mem_range.2 hk)
    exact absurd hp this
  | some l =>
    have h1 := List.find?_some h
    have h2 := List.mem_range.1 (List.mem_of_find?_eq_some h)
    rw [hu l h2 h1]

theorem findSome_unique {β : Type} (n : Nat) (g : Nat → Option β) (k : Nat) (b : β) (hk : k < n) (hp : g k = some b)
    (hu : ∀ l < n, l ≠ k → g l = none) : (List.range n).findSome? g = some b := by
  induction n with
  | zero => omega
  | succ n ih =>
    rw [List.range_succ, List.findSome?_append]
    by_cases h : k = n
    · subst h
      have : (List.range k).findSome? g = none := by
        rw [List.findSome?_eq_none_iff]
        intro l hl
        have := List.mem_range.1 hl
        exact hu l (by omega) (by omega)
      rw [this]
      simp [hp]
    · rw [ih (by omega) (fun l hl => hu l (by omega))]
      rfl

/-- The common face of two cells is found. -/
theorem commonFace_eq {u : UG} {m : Maps} (hc : Conforming u) (hg : Good u m.c2f m.f2v) {i i2 k k2 : Nat}
    (hi : i < u.ng) (hk : k < u.nf i) (hi2 : i2 < u.ng) (hk2 : k2 < u.nf i2) (hne : i ≠ i2)
    (h : faceSet u i k = faceSet u i2 k2) : commonFace u m i i2 = some (k, k2) := by
  unfold commonFace
  refine findSome_unique (u.nf i) _ k (k, k2) hk ?_ ?_
  · have hp : allPresent u m i i2 k = true := by
      rw [allPresent_iff hc hg hi hk]
      intro x hx
      rw [h] at hx
      obtain ⟨a, ha, e⟩ := List.mem_map.1 (List.mem_toFinset.1 hx)
      exact ⟨a, (corners_spec hc hi2 hk2).2.2.1 a ha, e⟩
    have hd : dualFace u m i i2 k = some k2 := by
      unfold dualFace
      refine find_unique (u.nf i2) _ k2 hk2 ((matches_iff hc hg hi hk hi2 hk2).2 h) ?_
      intro l hl hh
      have := (matches_iff hc hg hi hk hi2 hl).1 hh
      exact faceSet_inj hc hi2 hl hk2 (this.symm.trans h)
    rw [if_pos hp, hd]
    rfl
  · intro l hl hlk
    by_cases hp : allPresent u m i i2 l = true
    · rw [if_pos hp]
      have hd : dualFace u m i i2 l = none := by
        unfold dualFace
        rw [List.find?_eq_none]
        intro l2 hl2 hh
        have hl2' := List.mem_range.1 hl2
        have := (matches_iff hc hg hi hl hi2 hl2').1 hh
        exact hlk (hc.single i hi i2 hi2 hne l hl k hk l2 hl2' k2 hk2 this h).1
      rw [hd]
      rfl
    · rw [if_neg hp]

end TDy.Custom.Proofs
