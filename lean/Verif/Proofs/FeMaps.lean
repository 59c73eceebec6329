import Mathlib.Tactic.IntervalCases
import Mathlib.Tactic.Linarith
import Verif.Spec.FeMaps

/-!
# The maps of the finite element methods
-/

namespace TDy.Fe.Proofs

open TDy.Fe TDy.Fe.Spec

theorem forN_sumR (n : Nat) (f : Nat → ℝ) (a : ℝ) :
    forN n (fun j v => v + f j) a = a + ∑ j ∈ Finset.range n, f j := by
  induction n with
  | zero => simp [forN]
  | succ n ih => rw [forN, ih, Finset.sum_range_succ, add_assoc]

theorem l1norm_self (x : Nat → ℝ) (n : Nat) : l1norm x x n = 0 := by
  rw [l1norm, forN_sumR]; simp

theorem localDirs_opposite {dim q d : Nat} (hdim : dim = 2 ∨ dim = 3) (hq : q < 2^dim) (hd : d < dim) :
    localDirs dim (q*dim + d) = opposite dim q d ∧ opposite dim q d < 2^dim := by
  rcases hdim with rfl | rfl
  · have hq' : q < 4 := hq
    interval_cases q <;> interval_cases d <;> decide
  · have hq' : q < 8 := hq
    interval_cases q <;> interval_cases d <;> decide

theorem opposite_inj {dim q d e : Nat} (hdim : dim = 2 ∨ dim = 3) (hq : q < 2^dim) (hd : d < dim)
    (he : e < dim) (h : opposite dim q d = opposite dim q e) : d = e := by
  rcases hdim with rfl | rfl
  · have hq' : q < 4 := hq
    interval_cases q <;> interval_cases d <;> interval_cases e <;> first | rfl | exact absurd h (by decide)
  · have hq' : q < 8 := hq
    interval_cases q <;> interval_cases d <;> interval_cases e <;> first | rfl | exact absurd h (by decide)

variable {m : Plex} {c : Nat} {vert : Nat → Nat} {face : Nat → Nat → Nat}

theorem vert_inj (h : Shaped m c vert face) {q q' : Nat} (hq : q < m.ncv) (hq' : q' < m.ncv)
    (e : vert q = vert q') : q = q' := by
  by_contra hne
  have := h.apart q hq q' hq' hne
  rw [e, l1norm_self] at this
  norm_num at this

/-- The vertex map is that of the corners. -/
theorem vertexMap_eq (h : Shaped m c vert face) {q : Nat} (hq : q < m.ncv) :
    vertexMap m c q = vert q := by
  classical
  unfold vertexMap
  have hex : ∃ p, (m.closure c).find? (fun p => m.isVertex p &&
      !decide (l1norm (m.image c q) (m.X p) m.dim > 1/10^12)) = some p := by
    rw [← Option.isSome_iff_exists, List.find?_isSome]
    refine ⟨vert q, (h.mem q hq).1, ?_⟩
    rw [h.image q hq, l1norm_self, (h.mem q hq).2]
    norm_num
  obtain ⟨p, hp⟩ := hex
  rw [hp, Option.getD_some]
  have h1 := List.find?_some hp
  have h2 := List.mem_of_find?_eq_some hp
  rw [Bool.and_eq_true, Bool.not_eq_true', decide_eq_false_iff_not] at h1
  obtain ⟨q', hq', rfl⟩ := h.only p h2 h1.1
  by_contra hne
  refine h1.2 ?_
  rw [h.image q hq]
  exact h.apart q hq q' hq' (fun e => hne (by rw [e]))

/-- The value stored for face `f` of cell `c`. -/
noncomputable def signed (m : Plex) (c f : Nat) : Int :=
  open Classical in if aDotBMinusC (m.N f) (m.X f) (m.X c) m.dim < 0 then -(f : Int) else f

/-- The loop over the directions: writes the entry of the direction whose far corner is `p`. -/
theorem dirLoop_eq (h : Shaped m c vert face) {vmap : Nat → Nat} (hv : ∀ q < m.ncv, vmap q = vert q)
    {q : Nat} (hq : q < m.ncv) (f p : Nat) (map : Nat → Int) {d : Nat} (hd : d < m.dim) :
    dirLoop m vmap c f q p map (q*m.dim + d)
      = (if p = vert (opposite m.dim q d) then signed m c f else map (q*m.dim + d))
    ∧ ∀ k, (∀ e < m.dim, k ≠ q*m.dim + e) → dirLoop m vmap c f q p map k = map k := by
  classical
  have hl : ∀ e < m.dim, vmap (localDirs m.dim (q*m.dim + e)) = vert (opposite m.dim q e) := by
    intro e he
    have := localDirs_opposite h.dim (h.corners ▸ hq) he
    rw [this.1, hv _ (h.corners ▸ this.2)]
  unfold dirLoop
  have key := forN_invariant m.dim (fun d (s : (Nat → Int) × Bool) =>
    if s.2 then s
    else if p = vmap (localDirs m.dim (q*m.dim + d)) then
      if aDotBMinusC (m.N f) (m.X f) (m.X c) m.dim < 0 then
        (wr s.1 (q*m.dim + d) (-(f : Int)), true)
      else (wr s.1 (q*m.dim + d) (f : Int), false)
    else s) (map, false)
    (fun n s => (s.2 = true → ∃ e < n, p = vert (opposite m.dim q e)) ∧
      (∀ e < m.dim, s.1 (q*m.dim + e) =
        if e < n ∧ p = vert (opposite m.dim q e) then signed m c f else map (q*m.dim + e)) ∧
      ∀ k, (∀ e < m.dim, k ≠ q*m.dim + e) → s.1 k = map k)
    ⟨fun h => absurd h (by simp), fun e _ => by simp, fun _ _ => rfl⟩ ?_
  · refine ⟨?_, key.2.2⟩
    rw [key.2.1 d hd]
    simp only [hd, true_and]
  · rintro n s hn ⟨h1, h2, h3⟩
    by_cases hs : s.2 = true
    · simp only [hs, if_true]
      obtain ⟨e0, he0, hp0⟩ := h1 hs
      refine ⟨fun _ => ⟨e0, by omega, hp0⟩, ?_, h3⟩
      intro e he
      rw [h2 e he]
      by_cases hen : e = n
      · subst hen
        have hne : ¬ p = vert (opposite m.dim q e) := by
          intro hp
          have := vert_inj h (h.corners ▸ (localDirs_opposite h.dim (h.corners ▸ hq) he).2)
            (h.corners ▸ (localDirs_opposite h.dim (h.corners ▸ hq) (show e0 < m.dim by omega)).2)
            (hp ▸ hp0)
          have := opposite_inj h.dim (h.corners ▸ hq) he (by omega) this
          omega
        rw [if_neg (fun hh => hne hh.2), if_neg (fun hh => hne hh.2)]
      · have : e < n ↔ e < n + 1 := by omega
        simp only [this]
    · have hsf : s.2 = false := by simpa using hs
      simp only [hsf, Bool.false_eq_true, if_false]
      rw [hl n hn]
      by_cases hp : p = vert (opposite m.dim q n)
      · rw [if_pos hp]
        have hw : ∀ (b : Bool) (t : (Nat → Int) × Bool), t = (wr s.1 (q*m.dim + n) (signed m c f), b) →
            (t.2 = true → ∃ e < n + 1, p = vert (opposite m.dim q e)) ∧
            (∀ e < m.dim, t.1 (q*m.dim + e) =
              if e < n + 1 ∧ p = vert (opposite m.dim q e) then signed m c f else map (q*m.dim + e)) ∧
            ∀ k, (∀ e < m.dim, k ≠ q*m.dim + e) → t.1 k = map k := by
          rintro b t rfl
          refine ⟨fun _ => ⟨n, by omega, hp⟩, ?_, ?_⟩
          · intro e he
            by_cases hen : e = n
            · subst hen
              rw [if_pos ⟨by omega, hp⟩]
              exact wr_same _ _ _
            · refine (wr_other _ _ (by omega)).trans ?_
              rw [h2 e he]
              have : e < n ↔ e < n + 1 := by omega
              simp only [this]
          · intro k hk
            exact (wr_other _ _ (hk n hn)).trans (h3 k hk)
        by_cases hneg : aDotBMinusC (m.N f) (m.X f) (m.X c) m.dim < 0
        · rw [if_pos hneg]
          exact hw true _ (by rw [signed, if_pos hneg])
        · rw [if_neg hneg]
          exact hw false _ (by rw [signed, if_neg hneg])
      · rw [if_neg hp]
        refine ⟨fun hh => absurd hh (by rw [hsf]; decide), ?_, h3⟩
        intro e he
        rw [h2 e he]
        by_cases hen : e = n
        · subst hen
          rw [if_neg (fun hh => hp hh.2), if_neg (fun hh => hp hh.2)]
        · have : e < n ↔ e < n + 1 := by omega
          simp only [this]

/-- A fold that writes the same value at an index whenever a point satisfies a test. -/
theorem foldl_test {α : Type*} (L : List Nat) (g : (Nat → α) → Nat → (Nat → α)) (k : Nat)
    (P : Nat → Prop) [DecidablePred P] (v : Nat → α)
    (hg : ∀ a p, g a p k = if P p then v p else a k) (a : Nat → α) (p0 : Nat)
    (hu : ∀ p ∈ L, P p → p = p0) :
    L.foldl g a k = if p0 ∈ L ∧ P p0 then v p0 else a k := by
  induction L using List.reverseRecOn with
  | nil => simp
  | append_singleton L p ih =>
    rw [List.foldl_append, List.foldl_cons, List.foldl_nil, hg]
    have ih' := ih (fun p hp => hu p (by simp [hp]))
    by_cases hP : P p
    · have : p = p0 := hu p (by simp) hP
      subst this
      rw [if_pos hP, if_pos ⟨by simp, hP⟩]
    · rw [if_neg hP, ih']
      by_cases h0 : p0 ∈ L ∧ P p0
      · rw [if_pos h0, if_pos ⟨by simp [h0.1], h0.2⟩]
      · rw [if_neg h0, if_neg]
        rintro ⟨h1, h2⟩
        rcases List.mem_append.1 h1 with h1 | h1
        · exact h0 ⟨h1, h2⟩
        · rw [List.mem_singleton] at h1
          exact hP (h1 ▸ h2)

theorem foldl_keep {α : Type*} (L : List Nat) (g : (Nat → α) → Nat → (Nat → α)) (k : Nat)
    (hg : ∀ a p, g a p k = a k) (a : Nat → α) : L.foldl g a k = a k := by
  induction L generalizing a with
  | nil => rfl
  | cons p L ih => rw [List.foldl_cons, ih, hg]

theorem cornerLoop_eq (h : Shaped m c vert face) {vmap : Nat → Nat} (hv : ∀ q < m.ncv, vmap q = vert q)
    {q : Nat} (hq : q < m.ncv) (map : Nat → Int) {d : Nat} (hd : d < m.dim) :
    cornerLoop m vmap c q map (q*m.dim + d) = signed m c (face q d)
    ∧ ∀ k, (∀ e < m.dim, k ≠ q*m.dim + e) → cornerLoop m vmap c q map k = map k := by
  classical
  constructor
  · unfold cornerLoop
    rw [foldl_test (m.closure c) _ (q*m.dim + d)
      (fun f => m.isFace f = true ∧ vert q ∈ m.closure f ∧ vert (opposite m.dim q d) ∈ m.closure f)
      (fun f => signed m c f) ?_ map (face q d) ?_]
    · rw [if_pos]
      exact ⟨(h.isFace q hq d hd).1, (h.isFace q hq d hd).2, h.spans q hq d hd⟩
    · intro a f
      by_cases hf : m.isFace f = true
      · rw [if_pos hf]
        rw [foldl_test (m.closure f) _ (q*m.dim + d)
          (fun p1 => p1 = vert q ∧ vert (opposite m.dim q d) ∈ m.closure f)
          (fun _ => signed m c f) ?_ a (vert q) (fun p _ hp => hp.1)]
        · simp only [hf, true_and]
        · intro a p1
          rw [hv q hq]
          by_cases hp1 : p1 = vert q
          · rw [if_pos hp1]
            rw [foldl_test (m.closure f) _ (q*m.dim + d)
              (fun p => p = vert (opposite m.dim q d)) (fun _ => signed m c f)
              (fun a p => (dirLoop_eq h hv hq f p a hd).1) a (vert (opposite m.dim q d))
              (fun p _ hp => hp)]
            simp only [hp1, true_and, and_true]
          · rw [if_neg hp1, if_neg (fun hh => hp1 hh.1)]
      · rw [if_neg hf, if_neg (fun hh => hf hh.1)]
    · rintro f hf ⟨h1, h2, h3⟩
      exact h.unique q hq d hd f hf h1 h2 h3
  · intro k hk
    unfold cornerLoop
    refine foldl_keep _ _ _ (fun a f => ?_) map
    split
    · refine foldl_keep _ _ _ (fun a p1 => ?_) a
      split
      · exact foldl_keep _ _ _ (fun a p => (dirLoop_eq h hv hq f p a hd).2 k hk) a
      · rfl
    · rfl

/-- Every entry of the map of a cell. -/
theorem dirFaceMap_eq (h : Shaped m c vert face) {vmap : Nat → Nat} (hv : ∀ q < m.ncv, vmap q = vert q)
    {q : Nat} (hq : q < m.ncv) {d : Nat} (hd : d < m.dim) :
    dirFaceMap m vmap c (q*m.dim + d) = signed m c (face q d) := by
  unfold dirFaceMap
  have key := forN_invariant m.ncv (fun q map => cornerLoop m vmap c q map) (fun _ => (0 : Int))
    (fun n s => ∀ q < n, ∀ d < m.dim, s (q*m.dim + d) = signed m c (face q d))
    (fun q hq => absurd hq (by omega)) ?_
  · exact key q hq d hd
  · intro n s hn ih q' hq' d' hd'
    by_cases e : q' = n
    · subst e
      exact (cornerLoop_eq h hv hn s hd').1
    · rw [(cornerLoop_eq h hv hn s hd').2]
      · exact ih q' (by omega) d' hd'
      · intro e' he' heq
        have h1 := congrArg (· / m.dim) heq
        have hpos : 0 < m.dim := by omega
        rw [Nat.mul_comm q', Nat.mul_comm n, Nat.mul_add_div hpos, Nat.mul_add_div hpos,
          Nat.div_eq_of_lt hd', Nat.div_eq_of_lt he'] at h1
        omega

end TDy.Fe.Proofs
