import Verif.Spec.MeshTraverse
import Mathlib.Tactic.Linarith
import Mathlib.Data.List.Perm.Basic
import Mathlib.Data.List.Nodup

/-!
# Ordering the cells of a level

The search for neighbours follows chains and rings.
-/

namespace TDy.Traverse.Proofs

open TDy.Traverse TDy.Traverse.Spec

variable {m : TMesh}

theorem neighbours_iff (c d : Nat) : areNeighbors m c d = true ↔ Neighbours m c d := by
  simp only [areNeighbors, Neighbours, List.any_eq_true, beq_iff_eq]
  constructor
  · rintro ⟨f, hf, g, hg, rfl⟩; exact ⟨f, hf, hg⟩
  · rintro ⟨f, hf, hg⟩; exact ⟨f, hf, f, hg, rfl⟩

theorem Neighbours.symm {c d : Nat} (h : Neighbours m c d) : Neighbours m d c := by
  obtain ⟨f, a, b⟩ := h; exact ⟨f, b, a⟩

theorem neighbours_comm (c d : Nat) : Neighbours m c d ↔ Neighbours m d c :=
  ⟨Neighbours.symm, Neighbours.symm⟩

theorem areNeighbors_comm (c d : Nat) : areNeighbors m c d = areNeighbors m d c := by
  rw [Bool.eq_iff_iff, neighbours_iff, neighbours_iff, neighbours_comm]

/-! ### The greedy search -/

theorem greedy_ok_cons {n cur d : Nat} {u l : List Nat}
    (hf : u.find? (fun d => areNeighbors m cur d) = some d)
    (h : greedy m n d (u.erase d) = .ok l) : greedy m (n + 1) cur u = .ok (cur :: l) := by
  simp [greedy, hf, h, Out.bind]

/-- What a successful search delivers: all cells, each a neighbour of the one before. -/
theorem greedy_sound : ∀ (n cur : Nat) (u out : List Nat), u.length = n →
    greedy m n cur u = .ok out → out.head? = some cur ∧ out.Perm (cur :: u) ∧
      ∀ i c d, out[i]? = some c → out[i + 1]? = some d → Neighbours m c d := by
  intro n
  induction n with
  | zero =>
    intro cur u out hu h
    have hu' : u = [] := List.length_eq_zero_iff.1 hu
    subst hu'
    simp only [greedy, Out.ok.injEq] at h
    subst h
    refine ⟨rfl, List.Perm.refl _, ?_⟩
    intro i c d _ hd
    simp at hd
  | succ n ih =>
    intro cur u out hu h
    simp only [greedy] at h
    cases hf : u.find? (fun d => areNeighbors m cur d) with
    | none => rw [hf] at h; simp at h
    | some d =>
      rw [hf] at h
      cases hg : greedy m n d (u.erase d) with
      | err => simp [hg, Out.bind] at h
      | ub => simp [hg, Out.bind] at h
      | ok l =>
        simp only [hg, Out.bind, Out.ok.injEq] at h
        subst h
        have hmem : d ∈ u := List.mem_of_find?_eq_some hf
        have hadj : Neighbours m cur d := (neighbours_iff _ _).1 (List.find?_some hf)
        obtain ⟨h1, h2, h3⟩ := ih d (u.erase d) l
          (by rw [List.length_erase_of_mem hmem, hu]; rfl) hg
        refine ⟨rfl, ?_, ?_⟩
        · exact (h2.trans (List.perm_cons_erase hmem).symm).cons cur
        · intro i c e hc he
          cases i with
          | zero =>
            simp at hc he
            subst hc
            rw [← List.head?_eq_getElem?, h1] at he
            cases he
            exact hadj
          | succ i =>
            simp at hc he
            exact h3 i c e hc he

/-- A list of which exactly consecutive members are neighbours, described from its front. -/
def Path (m : TMesh) : List Nat → Prop
  | [] => True
  | [_] => True
  | x :: y :: l => Neighbours m x y ∧ (∀ z ∈ l, ¬ Neighbours m x z) ∧ Path m (y :: l)

theorem path_of_next : ∀ (l : List Nat),
    (∀ i j c d, i < j → l[i]? = some c → l[j]? = some d → (Neighbours m c d ↔ j = i + 1)) →
    Path m l
  | [], _ => trivial
  | [_], _ => trivial
  | x :: y :: l, h => by
    refine ⟨(h 0 1 x y (by omega) rfl rfl).2 rfl, ?_, path_of_next (y :: l) ?_⟩
    · intro z hz hn
      obtain ⟨k, hk⟩ := List.mem_iff_getElem?.1 hz
      have := (h 0 (k + 2) x z (by omega) rfl (by simpa using hk)).1 hn
      omega
    · intro i j c d hij hc hd
      rw [h (i + 1) (j + 1) c d (by omega) (by simpa using hc) (by simpa using hd)]
      omega

theorem greedy_path : ∀ (l : List Nat) (x : Nat) (u : List Nat), Path m (x :: l) → u.Perm l →
    greedy m l.length x u = .ok (x :: l) := by
  intro l
  induction l with
  | nil => intro x u _ _; rfl
  | cons y l ih =>
    intro x u hp hu
    obtain ⟨h1, h2, h3⟩ := hp
    have hy : y ∈ u := hu.mem_iff.2 (by simp)
    cases hf : u.find? (fun d => areNeighbors m x d) with
    | none =>
      rw [List.find?_eq_none] at hf
      exact absurd ((neighbours_iff _ _).2 h1) (hf y hy)
    | some d =>
      have hd : d = y := by
        have hadj := (neighbours_iff (m := m) _ _).1 (List.find?_some hf)
        have hm := hu.mem_iff.1 (List.mem_of_find?_eq_some hf)
        rcases List.mem_cons.1 hm with h | h
        · exact h
        · exact absurd hadj (h2 d h)
      subst hd
      have he : (u.erase d).Perm l := by
        have := hu.erase d
        simpa using this
      exact greedy_ok_cons hf (ih d (u.erase d) h3 he)

/-! ### Turning and reversing -/

theorem chain_reverse {l : List Nat} (h : Chain m l) : Chain m l.reverse := by
  refine ⟨by simpa using h.nonempty, by simpa using h.nodup, ?_⟩
  intro i j c d hij hc hd
  have hj : j < l.length := by
    have := (List.getElem?_eq_some_iff.1 hd).1
    simpa using this
  rw [List.getElem?_reverse (by omega)] at hc hd
  rw [neighbours_comm, h.next (l.length - 1 - j) (l.length - 1 - i) d c (by omega) hd hc]
  omega

theorem ring_reverse {l : List Nat} (h : Ring m l) : Ring m l.reverse := by
  refine ⟨by simpa using h.three, by simpa using h.nodup, ?_⟩
  intro i j c d hij hc hd
  have hj : j < l.length := by
    have := (List.getElem?_eq_some_iff.1 hd).1
    simpa using this
  rw [List.getElem?_reverse (by omega)] at hc hd
  rw [neighbours_comm, h.next (l.length - 1 - j) (l.length - 1 - i) d c (by omega) hd hc]
  rw [List.length_reverse]
  omega

theorem ring_turn_one {x : Nat} {l : List Nat} (h : Ring m (x :: l)) : Ring m (l ++ [x]) := by
  have hp : (l ++ [x]).Perm (x :: l) := List.perm_append_singleton x l
  refine ⟨by rw [hp.length_eq]; exact h.three, hp.nodup_iff.2 h.nodup, ?_⟩
  intro i j c d hij hc hd
  have hlen : (l ++ [x]).length = l.length + 1 := by simp
  have hj : j < l.length + 1 := by
    have := (List.getElem?_eq_some_iff.1 hd).1
    rwa [hlen] at this
  rw [List.getElem?_append_left (by omega)] at hc
  rw [hlen]
  have hc' : (x :: l)[i + 1]? = some c := by simpa using hc
  rcases Nat.lt_or_ge j l.length with hjl | hjl
  · rw [List.getElem?_append_left hjl] at hd
    have hd' : (x :: l)[j + 1]? = some d := by simpa using hd
    rw [h.next (i + 1) (j + 1) c d (by omega) hc' hd']
    omega
  · have hje : j = l.length := by omega
    subst hje
    simp at hd
    subst hd
    rw [neighbours_comm, h.next 0 (i + 1) x c (by omega) rfl hc']
    simp
    omega

theorem ring_turn : ∀ (p q : List Nat), Ring m (p ++ q) → Ring m (q ++ p)
  | [], q, h => by simpa using h
  | x :: p, q, h => by
    have h1 : Ring m (p ++ (q ++ [x])) := by
      have := ring_turn_one (x := x) (l := p ++ q) (by simpa using h)
      simpa using this
    have := ring_turn p (q ++ [x]) h1
    simpa using this

/-- The search around a ring that starts at `c` and goes to `y` first. -/
theorem greedy_ring_tail {c y : Nat} {r : List Nat} (h : Ring m (c :: y :: r)) :
    Path m (y :: r) := by
  apply path_of_next
  intro i j a b hij ha hb
  have hj := (List.getElem?_eq_some_iff.1 hb).1
  rw [h.next (i + 1) (j + 1) a b (by omega) (by simpa using ha) (by simpa using hb)]
  omega

theorem greedy_ring {c : Nat} {r u : List Nat} (h : Ring m (c :: r)) (hu : u.Perm r) :
    ∃ r', greedy m u.length c u = .ok (c :: r') ∧ r'.Perm r ∧ Ring m (c :: r') := by
  -- the first neighbour found
  have hlen : 2 ≤ r.length := by have := h.three; simp at this; omega
  obtain ⟨y, r1, rfl⟩ : ∃ y r1, r = y :: r1 := by
    cases r with
    | nil => simp at hlen
    | cons y r1 => exact ⟨y, r1, rfl⟩
  have hn : u.length = r1.length + 1 := by rw [hu.length_eq]; rfl
  have hyu : y ∈ u := hu.mem_iff.2 (by simp)
  have hcy : Neighbours m c y := (h.next 0 1 c y (by omega) rfl rfl).2 (Or.inl rfl)
  cases hf : u.find? (fun d => areNeighbors m c d) with
  | none =>
    rw [List.find?_eq_none] at hf
    exact absurd ((neighbours_iff _ _).2 hcy) (hf y hyu)
  | some d =>
    have hadj := (neighbours_iff (m := m) _ _).1 (List.find?_some hf)
    have hm := hu.mem_iff.1 (List.mem_of_find?_eq_some hf)
    obtain ⟨k, hk⟩ := List.mem_iff_getElem?.1 hm
    have hcase := (h.next 0 (k + 1) c d (by omega) rfl (by simpa using hk)).1 hadj
    -- turning the ring round, the first neighbour is the next member
    have key : ∀ (s : List Nat), Ring m (c :: d :: s) → (d :: s).Perm (y :: r1) →
        ∃ r', greedy m u.length c u = .ok (c :: r') ∧ r'.Perm (y :: r1) ∧ Ring m (c :: r') := by
      intro s hs hp
      refine ⟨d :: s, ?_, hp, hs⟩
      have hsl : s.length = r1.length := by simpa using hp.length_eq
      rw [hn, ← hsl]
      refine greedy_ok_cons hf (greedy_path s d _ (greedy_ring_tail hs) ?_)
      have := (hu.trans hp.symm).erase d
      simpa using this
    rcases hcase with hk0 | ⟨_, hkl⟩
    · have hk0' : k = 0 := by omega
      subst hk0'
      simp at hk
      subst hk
      exact key r1 h (List.Perm.refl _)
    · have hlast : k = r1.length := by simp at hkl; omega
      have hrev : Ring m (c :: (y :: r1).reverse) := by
        have h1 := ring_reverse h
        rw [List.reverse_cons] at h1
        have := ring_turn _ _ h1
        simpa using this
      obtain ⟨s, hs⟩ : ∃ s, (y :: r1).reverse = d :: s := by
        have hg : (y :: r1).reverse[0]? = some d := by
          rw [List.getElem?_reverse (by simp)]
          simpa [hlast] using hk
        cases hrr : (y :: r1).reverse with
        | nil => simp at hrr
        | cons a s => rw [hrr] at hg; simp at hg; subst hg; exact ⟨s, rfl⟩
      rw [hs] at hrev
      refine key s hrev ?_
      rw [← hs]
      exact List.reverse_perm _

/-! ### Numbers of neighbours -/

/-- The number of members of the list that are neighbours of `c`, not counting `c`. -/
def deg (m : TMesh) (l : List Nat) (c : Nat) : Nat :=
  (l.filter fun d => d != c && areNeighbors m c d).length

theorem deg_perm {l l' : List Nat} (h : l.Perm l') (c : Nat) : deg m l c = deg m l' c :=
  (h.filter _).length_eq

theorem deg_split {p s : List Nat} {c : Nat} (h : (p ++ c :: s).Nodup) :
    deg m (p ++ c :: s) c = (p.filter fun d => areNeighbors m d c).length
      + (s.filter fun d => areNeighbors m c d).length := by
  have hp : c ∉ p ∧ c ∉ s := by
    have := List.nodup_middle.1 h
    rw [List.nodup_cons] at this
    simpa using this.1
  have f1 : p.filter (fun d => d != c && areNeighbors m c d)
      = p.filter (fun d => areNeighbors m d c) := by
    apply List.filter_congr
    intro d hd
    have : d ≠ c := fun e => hp.1 (e ▸ hd)
    simp [this, areNeighbors_comm c d]
  have f2 : s.filter (fun d => d != c && areNeighbors m c d)
      = s.filter (fun d => areNeighbors m c d) := by
    apply List.filter_congr
    intro d hd
    have : d ≠ c := fun e => hp.2 (e ▸ hd)
    simp [this]
  unfold deg
  rw [List.filter_append, List.filter_cons]
  simp [f1, f2]

theorem nNeighbors_eq {cells : List Nat} (hn : cells.Nodup) {i : Nat} (hi : i < cells.length) :
    nNeighbors m cells i = deg m cells cells[i] := by
  have e : cells = cells.take i ++ cells[i] :: cells.drop (i + 1) := by simp
  have h2 : (cells.take i ++ cells[i] :: cells.drop (i + 1)).Nodup := by rw [← e]; exact hn
  have h3 := deg_split (m := m) h2
  rw [← e] at h3
  rw [h3]
  unfold nNeighbors
  simp [List.getD_eq_getElem?_getD, List.getElem?_eq_getElem hi]

theorem counts_eq {cells : List Nat} (hn : cells.Nodup) :
    cells.zip ((List.range cells.length).map (nNeighbors m cells))
      = cells.map fun c => (c, deg m cells c) := by
  apply List.ext_getElem
  · simp
  · intro i h1 h2
    have hi : i < cells.length := by simpa using h1
    simp [nNeighbors_eq hn hi]

theorem length_filter_last {P : Nat → Bool} {l : List Nat}
    (h : ∀ k d, l[k]? = some d → (P d = true ↔ k + 1 = l.length)) :
    (l.filter P).length = if l = [] then 0 else 1 := by
  rcases List.eq_nil_or_concat l with rfl | ⟨q, z, rfl⟩
  · simp
  · have h1 : q.filter P = [] := by
      rw [List.filter_eq_nil_iff]
      intro d hd
      obtain ⟨k, hk⟩ := List.mem_iff_getElem?.1 hd
      have hkl := (List.getElem?_eq_some_iff.1 hk).1
      rw [h k d (by rw [List.concat_eq_append, List.getElem?_append_left hkl]; exact hk)]
      simp
      omega
    have h2 : P z = true := (h q.length z (by simp)).2 (by simp)
    simp [List.filter_append, h1, h2]

theorem length_filter_head {P : Nat → Bool} {l : List Nat}
    (h : ∀ k d, l[k]? = some d → (P d = true ↔ k = 0)) :
    (l.filter P).length = if l = [] then 0 else 1 := by
  cases l with
  | nil => simp
  | cons x q =>
    have h1 : q.filter P = [] := by
      rw [List.filter_eq_nil_iff]
      intro d hd
      obtain ⟨k, hk⟩ := List.mem_iff_getElem?.1 hd
      rw [h (k + 1) d (by simpa using hk)]
      omega
    have h2 : P x = true := (h 0 x rfl).2 rfl
    simp [h1, h2]

theorem length_filter_both {P : Nat → Bool} {l : List Nat} (hl : 2 ≤ l.length)
    (h : ∀ k d, l[k]? = some d → (P d = true ↔ k = 0 ∨ k + 1 = l.length)) :
    (l.filter P).length = 2 := by
  cases l with
  | nil => simp at hl
  | cons x q =>
    have h2 : P x = true := (h 0 x rfl).2 (Or.inl rfl)
    have h1 : (q.filter P).length = if q = [] then 0 else 1 := by
      apply length_filter_last
      intro k d hk
      rw [h (k + 1) d (by simpa using hk)]
      simp
    have hq : q ≠ [] := by rintro rfl; simp at hl
    simp [h2, h1, hq]

theorem deg_chain {p s : List Nat} {c : Nat} (h : Chain m (p ++ c :: s)) :
    deg m (p ++ c :: s) c = (if p = [] then 0 else 1) + (if s = [] then 0 else 1) := by
  rw [deg_split h.nodup]
  congr 1
  · apply length_filter_last
    intro k d hk
    have hkl := (List.getElem?_eq_some_iff.1 hk).1
    rw [neighbours_iff, h.next k p.length d c hkl (by rw [List.getElem?_append_left hkl]; exact hk)
      (by simp)]
    omega
  · apply length_filter_head
    intro k d hk
    rw [neighbours_iff, h.next p.length (p.length + k + 1) c d (by omega) (by simp)
      (by rw [List.getElem?_append_right (by omega)]; simpa [Nat.add_assoc] using hk)]
    omega

theorem deg_ring {p s : List Nat} {c : Nat} (h : Ring m (p ++ c :: s)) :
    deg m (p ++ c :: s) c = 2 := by
  have h3 := h.three
  simp at h3
  have hp : ∀ k d, p[k]? = some d → (areNeighbors m d c = true ↔
      k + 1 = p.length ∨ (k = 0 ∧ s.length = 0)) := by
    intro k d hk
    have hkl := (List.getElem?_eq_some_iff.1 hk).1
    rw [neighbours_iff, h.next k p.length d c hkl (by rw [List.getElem?_append_left hkl]; exact hk)
      (by simp)]
    rw [show (p ++ c :: s).length = p.length + (s.length + 1) by simp]
    omega
  have hs : ∀ k d, s[k]? = some d → (areNeighbors m c d = true ↔
      k = 0 ∨ (p.length = 0 ∧ k + 1 = s.length)) := by
    intro k d hk
    rw [neighbours_iff, h.next p.length (p.length + k + 1) c d (by omega) (by simp)
      (by rw [List.getElem?_append_right (by omega)]; simpa [Nat.add_assoc] using hk)]
    rw [show (p ++ c :: s).length = p.length + (s.length + 1) by simp]
    omega
  rw [deg_split h.nodup]
  rcases Nat.eq_zero_or_pos p.length with hp0 | hp0
  · have : p = [] := List.length_eq_zero_iff.1 hp0
    subst this
    rw [length_filter_both (l := s) (by simp at h3; omega)]
    · simp
    · intro k d hk; rw [hs k d hk]; simp
  · rcases Nat.eq_zero_or_pos s.length with hs0 | hs0
    · have : s = [] := List.length_eq_zero_iff.1 hs0
      subst this
      rw [length_filter_both (l := p) (by simp at h3; omega)]
      · simp
      · intro k d hk; rw [hp k d hk]; simp; omega
    · rw [length_filter_last (l := p), length_filter_head (l := s)]
      · have h1 : p ≠ [] := by rintro rfl; simp at hp0
        have h2 : s ≠ [] := by rintro rfl; simp at hs0
        simp [h1, h2]
      · intro k d hk; rw [hs k d hk]; omega
      · intro k d hk; rw [hp k d hk]; omega

/-! ### Least and greatest numbers -/

theorem foldl_min_le (l : List Nat) (a : Nat) : l.foldl min a ≤ a ∧ ∀ x ∈ l, l.foldl min a ≤ x := by
  induction l generalizing a with
  | nil => simp
  | cons y l ih =>
    obtain ⟨h1, h2⟩ := ih (min a y)
    refine ⟨by simp only [List.foldl_cons]; omega, ?_⟩
    intro x hx
    simp only [List.foldl_cons]
    rcases List.mem_cons.1 hx with rfl | h
    · omega
    · exact h2 x h

theorem foldl_min_mem (l : List Nat) (a : Nat) : l.foldl min a = a ∨ l.foldl min a ∈ l := by
  induction l generalizing a with
  | nil => simp
  | cons y l ih =>
    simp only [List.foldl_cons]
    rcases ih (min a y) with h | h
    · rcases Nat.le_total a y with hay | hay
      · rw [min_eq_left hay] at h ⊢; exact Or.inl h
      · rw [min_eq_right hay] at h ⊢; right; rw [h]; simp
    · right; exact List.mem_cons_of_mem _ h

theorem foldl_max_le (l : List Nat) (a : Nat) : a ≤ l.foldl max a ∧ ∀ x ∈ l, x ≤ l.foldl max a := by
  induction l generalizing a with
  | nil => simp
  | cons y l ih =>
    obtain ⟨h1, h2⟩ := ih (max a y)
    refine ⟨by simp only [List.foldl_cons]; omega, ?_⟩
    intro x hx
    simp only [List.foldl_cons]
    rcases List.mem_cons.1 hx with rfl | h
    · omega
    · exact h2 x h

theorem foldl_max_mem (l : List Nat) (a : Nat) : l.foldl max a = a ∨ l.foldl max a ∈ l := by
  induction l generalizing a with
  | nil => simp
  | cons y l ih =>
    simp only [List.foldl_cons]
    rcases ih (max a y) with h | h
    · rcases Nat.le_total a y with hay | hay
      · rw [max_eq_right hay] at h ⊢; right; rw [h]; simp
      · rw [max_eq_left hay] at h ⊢; exact Or.inl h
    · right; exact List.mem_cons_of_mem _ h

/-! ### `ArrangeCellsInCircularOrder` -/

/-- The cells with the least, and with a greater, number of neighbours. -/
def minDeg (m : TMesh) (cells : List Nat) : Nat := (cells.map (deg m cells)).foldl min cells.length
def maxDeg (m : TMesh) (cells : List Nat) : Nat := (cells.map (deg m cells)).foldl max 0
def endCells (m : TMesh) (cells : List Nat) : List Nat :=
  cells.filter fun c => deg m cells c == minDeg m cells
def midCells (m : TMesh) (cells : List Nat) : List Nat :=
  cells.filter fun c => decide (minDeg m cells < deg m cells c)

/-- From the first cell of the list on. -/
def fromHead (m : TMesh) : List Nat → Out (List Nat)
  | [] => .ub
  | c :: cs => greedy m cs.length c cs

theorem circularOrder_eq {cells : List Nat} (hn : cells.Nodup) :
    circularOrder m cells =
      if minDeg m cells ≠ maxDeg m cells ∧ (endCells m cells).length ≠ 2 then .err
      else fromHead m (if minDeg m cells ≠ maxDeg m cells then
        (endCells m cells).take 1 ++ midCells m cells ++ (endCells m cells).drop 1 else cells) := by
  have e1 : (cells.map fun c => (c, deg m cells c)).map Prod.snd = cells.map (deg m cells) := by
    simp [Function.comp_def]
  have e2 : ∀ k, ((cells.map fun c => (c, deg m cells c)).filter fun p => p.2 == k)
      = (cells.filter fun c => deg m cells c == k).map fun c => (c, deg m cells c) := by
    intro k; simp [List.filter_map, Function.comp_def]
  have e3 : ∀ k, ((cells.map fun c => (c, deg m cells c)).filter fun p => decide (k < p.2))
      = (cells.filter fun c => decide (k < deg m cells c)).map fun c => (c, deg m cells c) := by
    intro k; simp [List.filter_map, Function.comp_def]
  unfold circularOrder
  simp only [counts_eq hn, e1, e2, e3, List.length_map]
  have e4 : ∀ (a b c : List Nat),
      List.map Prod.fst (List.take 1 (List.map (fun c => (c, deg m cells c)) a)
        ++ List.map (fun c => (c, deg m cells c)) b
        ++ List.drop 1 (List.map (fun c => (c, deg m cells c)) c))
      = List.take 1 a ++ b ++ List.drop 1 c := by
    intro a b c
    rw [← List.map_take, ← List.map_drop, ← List.map_append, ← List.map_append, List.map_map]
    simp [Function.comp_def]
  rw [e4]
  unfold fromHead
  rfl

theorem ends_mids_perm (cells : List Nat) :
    ((endCells m cells).take 1 ++ midCells m cells ++ (endCells m cells).drop 1).Perm cells := by
  have h1 : ((endCells m cells).take 1 ++ midCells m cells ++ (endCells m cells).drop 1).Perm
      (endCells m cells ++ midCells m cells) := by
    calc ((endCells m cells).take 1 ++ midCells m cells ++ (endCells m cells).drop 1)
      _ = (endCells m cells).take 1 ++ (midCells m cells ++ (endCells m cells).drop 1) := by simp
      List.Perm _ ((endCells m cells).take 1 ++ ((endCells m cells).drop 1 ++ midCells m cells)) :=
        List.Perm.append_left _ List.perm_append_comm
      _ = endCells m cells ++ midCells m cells := by
        rw [← List.append_assoc, List.take_append_drop]
  refine h1.trans ?_
  have h2 : midCells m cells = cells.filter fun c => !(deg m cells c == minDeg m cells) := by
    apply List.filter_congr
    intro c hc
    have hle : minDeg m cells ≤ deg m cells c :=
      (foldl_min_le _ _).2 _ (List.mem_map_of_mem hc)
    rw [Bool.eq_iff_iff]
    simp
    omega
  rw [h2]
  exact List.filter_append_perm _ _

theorem circular_sound {cells out : List Nat} (hn : cells.Nodup)
    (h : circularOrder m cells = .ok out) :
    out.Perm cells ∧ ∀ i c d, out[i]? = some c → out[i + 1]? = some d → Neighbours m c d := by
  rw [circularOrder_eq hn] at h
  split_ifs at h with h1 h2
  · have hp := ends_mids_perm (m := m) cells
    cases he : ((endCells m cells).take 1 ++ midCells m cells ++ (endCells m cells).drop 1) with
    | nil => rw [he] at h; simp [fromHead] at h
    | cons c cs =>
      rw [he] at h hp
      obtain ⟨_, g2, g3⟩ := greedy_sound _ c cs out rfl h
      exact ⟨g2.trans hp, g3⟩
  · cases cells with
    | nil => simp [fromHead] at h
    | cons c cs =>
      obtain ⟨_, g2, g3⟩ := greedy_sound _ c cs out rfl h
      exact ⟨g2, g3⟩

theorem mem_split {l : List Nat} {c : Nat} (h : c ∈ l) : ∃ p s, l = p ++ c :: s :=
  List.append_of_mem h

theorem circular_ring {cells l : List Nat} (hl : Ring m l) (hp : cells.Perm l) :
    ∃ out, circularOrder m cells = .ok out ∧ out.Perm cells ∧ Ring m out := by
  have hn : cells.Nodup := hp.nodup_iff.2 hl.nodup
  have hdeg : ∀ c ∈ cells, deg m cells c = 2 := by
    intro c hc
    obtain ⟨p, s, rfl⟩ := mem_split (hp.mem_iff.1 hc)
    rw [deg_perm hp]
    exact deg_ring hl
  have hlen : 3 ≤ cells.length := by rw [hp.length_eq]; exact hl.three
  have hmin : minDeg m cells = 2 := by
    rcases foldl_min_mem (cells.map (deg m cells)) cells.length with h | h
    · obtain ⟨c, hc⟩ := List.exists_mem_of_length_pos (show 0 < cells.length by omega)
      have := (foldl_min_le (cells.map (deg m cells)) cells.length).2 _ (List.mem_map_of_mem hc)
      rw [hdeg c hc, h] at this
      omega
    · obtain ⟨c, hc, he⟩ := List.mem_map.1 h
      show (cells.map (deg m cells)).foldl min cells.length = 2
      rw [← he, hdeg c hc]
  have hmax : maxDeg m cells = 2 := by
    rcases foldl_max_mem (cells.map (deg m cells)) 0 with h | h
    · obtain ⟨c, hc⟩ := List.exists_mem_of_length_pos (show 0 < cells.length by omega)
      have := (foldl_max_le (cells.map (deg m cells)) 0).2 _ (List.mem_map_of_mem hc)
      rw [hdeg c hc, h] at this
      omega
    · obtain ⟨c, hc, he⟩ := List.mem_map.1 h
      show (cells.map (deg m cells)).foldl max 0 = 2
      rw [← he, hdeg c hc]
  rw [circularOrder_eq hn, hmin, hmax]
  simp only [ne_eq, not_true_eq_false, false_and, if_false]
  cases cells with
  | nil => simp at hlen
  | cons c cs =>
    obtain ⟨p, s, rfl⟩ := mem_split (hp.mem_iff.1 (List.mem_cons_self))
    have hr : Ring m (c :: (s ++ p)) := by
      have := ring_turn _ _ hl
      simpa using this
    have hcs : cs.Perm (s ++ p) := by
      have : (c :: cs).Perm (c :: (s ++ p)) := hp.trans (by
        have := List.perm_append_comm (l₁ := p) (l₂ := c :: s)
        simpa using this)
      exact this.cons_inv
    obtain ⟨r', h1, h2, h3⟩ := greedy_ring hr hcs
    refine ⟨c :: r', h1, ?_, h3⟩
    exact (h2.trans hcs.symm).cons c

theorem greedy_chain_from {c : Nat} {r u : List Nat} (h : Chain m (c :: r)) (hu : u.Perm r) :
    greedy m u.length c u = .ok (c :: r) := by
  rw [hu.length_eq]
  exact greedy_path r c u (path_of_next _ h.next) hu

/-- Starting at one of the two ends of a chain. -/
theorem greedy_chain {c : Nat} {cs l : List Nat} (hl : Chain m l) (hp : (c :: cs).Perm l)
    (hend : l.head? = some c ∨ l.getLast? = some c) :
    ∃ out, greedy m cs.length c cs = .ok out ∧ out.Perm (c :: cs) ∧ Chain m out := by
  have key : ∀ r, Chain m (c :: r) → (c :: r).Perm (c :: cs) →
      ∃ out, greedy m cs.length c cs = .ok out ∧ out.Perm (c :: cs) ∧ Chain m out := by
    intro r hr hpr
    exact ⟨c :: r, greedy_chain_from hr hpr.cons_inv.symm, hpr, hr⟩
  rcases hend with h | h
  · cases l with
    | nil => simp at h
    | cons x r =>
      simp at h
      subst h
      exact key r hl hp.symm
  · have h2 : l.reverse.head? = some c := by rw [List.head?_reverse]; exact h
    cases hr : l.reverse with
    | nil => rw [hr] at h2; simp at h2
    | cons x r =>
      rw [hr] at h2
      simp at h2
      subst h2
      refine key r (hr ▸ chain_reverse hl) ?_
      rw [← hr]
      exact (List.reverse_perm l).trans hp.symm

theorem circular_chain {cells l : List Nat} (hl : Chain m l) (hp : cells.Perm l) :
    ∃ out, circularOrder m cells = .ok out ∧ out.Perm cells ∧ Chain m out := by
  have hn : cells.Nodup := hp.nodup_iff.2 hl.nodup
  have hdeg : ∀ p s c, l = p ++ c :: s → deg m cells c
      = (if p = [] then 0 else 1) + (if s = [] then 0 else 1) := by
    intro p s c hc
    rw [deg_perm hp]
    subst hc
    exact deg_chain hl
  have hpos : 0 < cells.length := by
    rw [hp.length_eq]; exact List.length_pos_of_ne_nil hl.nonempty
  rw [circularOrder_eq hn]
  by_cases hthree : 3 ≤ l.length
  · -- two ends and something between
    obtain ⟨e1, mid, e2, hlm⟩ : ∃ e1 mid e2, l = e1 :: (mid ++ [e2]) := by
      cases l with
      | nil => simp at hthree
      | cons e1 q =>
        rcases List.eq_nil_or_concat q with rfl | ⟨mid, e2, rfl⟩
        · simp at hthree
        · exact ⟨e1, mid, e2, by simp⟩
    have hmid0 : mid ≠ [] := by rintro rfl; simp [hlm] at hthree
    have d1 : deg m cells e1 = 1 := by
      rw [hdeg [] (mid ++ [e2]) e1 (by simpa using hlm)]; simp
    have d2 : deg m cells e2 = 1 := by
      rw [hdeg (e1 :: mid) [] e2 (by simpa using hlm)]; simp
    have dm : ∀ c ∈ mid, deg m cells c = 2 := by
      intro c hc
      obtain ⟨p, s, rfl⟩ := mem_split hc
      rw [hdeg (e1 :: p) (s ++ [e2]) c (by simpa using hlm)]; simp
    have hmem : ∀ c, c ∈ cells ↔ c = e1 ∨ c ∈ mid ∨ c = e2 := by
      intro c; rw [hp.mem_iff, hlm]; simp
    have hge : ∀ c ∈ cells, 1 ≤ deg m cells c := by
      intro c hc
      rcases (hmem c).1 hc with rfl | h | rfl
      · omega
      · rw [dm c h]; omega
      · omega
    have hclen : 3 ≤ cells.length := by rw [hp.length_eq]; exact hthree
    have hmin : minDeg m cells = 1 := by
      have hle := (foldl_min_le (cells.map (deg m cells)) cells.length).2 _
        (List.mem_map_of_mem ((hmem e1).2 (Or.inl rfl)))
      rw [d1] at hle
      rcases foldl_min_mem (cells.map (deg m cells)) cells.length with h | h
      · rw [h] at hle; omega
      · obtain ⟨c, hc, he⟩ := List.mem_map.1 h
        have := hge c hc
        rw [he] at this
        exact Nat.le_antisymm hle this
    have hmax : maxDeg m cells = 2 := by
      obtain ⟨c0, hc0⟩ := List.exists_mem_of_ne_nil _ hmid0
      have hle := (foldl_max_le (cells.map (deg m cells)) 0).2 _
        (List.mem_map_of_mem ((hmem c0).2 (Or.inr (Or.inl hc0))))
      rw [dm c0 hc0] at hle
      rcases foldl_max_mem (cells.map (deg m cells)) 0 with h | h
      · rw [h] at hle; omega
      · obtain ⟨c, hc, he⟩ := List.mem_map.1 h
        have : deg m cells c ≤ 2 := by
          rcases (hmem c).1 hc with rfl | h | rfl
          · omega
          · rw [dm c h]
          · omega
        rw [he] at this
        exact Nat.le_antisymm this hle
    have hends : (endCells m cells).Perm [e1, e2] := by
      have h1 : (endCells m cells).Perm (l.filter fun c => deg m cells c == 1) := by
        unfold endCells; rw [hmin]; exact hp.filter _
      have h2 : (l.filter fun c => deg m cells c == 1) = [e1, e2] := by
        rw [hlm, List.filter_cons, if_pos (by simp [d1]), List.filter_append]
        have h3 : mid.filter (fun c => deg m cells c == 1) = [] := by
          rw [List.filter_eq_nil_iff]
          intro c hc; rw [dm c hc]; simp
        have h4 : [e2].filter (fun c => deg m cells c == 1) = [e2] := by simp [d2]
        rw [h3, h4]; rfl
      rw [h2] at h1; exact h1
    have hlen2 : (endCells m cells).length = 2 := by rw [hends.length_eq]; rfl
    rw [hmin, hmax, hlen2]
    simp only [ne_eq, not_true_eq_false, and_false, if_false]
    rw [if_pos (by decide)]
    have hperm := ends_mids_perm (m := m) cells
    obtain ⟨a, b, hab⟩ : ∃ a b, endCells m cells = [a, b] := by
      cases he : endCells m cells with
      | nil => simp [he] at hlen2
      | cons a t =>
        cases t with
        | nil => simp [he] at hlen2
        | cons b t' =>
          cases t' with
          | nil => exact ⟨a, b, rfl⟩
          | cons _ _ => simp [he] at hlen2
    rw [hab] at hperm hends ⊢
    have ha : a = e1 ∨ a = e2 := by
      have := hends.mem_iff.1 (List.mem_cons_self (a := a) (l := [b]))
      simpa using this
    simp only [List.take_succ_cons, List.take_zero, List.drop_succ_cons, List.drop_zero,
      List.cons_append, List.nil_append] at hperm ⊢
    show ∃ out, greedy m _ a _ = _ ∧ _
    have hend : l.head? = some a ∨ l.getLast? = some a := by
      rcases ha with h | h
      · left; rw [hlm, h]; rfl
      · right; rw [hlm, h, ← List.cons_append]; exact List.getLast?_concat
    obtain ⟨out, g1, g2, g3⟩ := greedy_chain hl (hperm.trans hp) hend
    exact ⟨out, g1, g2.trans hperm, g3⟩
  · -- one or two cells
    have hcl : cells.length = l.length := hp.length_eq
    have hall : minDeg m cells = maxDeg m cells := by
      have hc : ∀ c ∈ cells, deg m cells c = l.length - 1 := by
        intro c hc
        obtain ⟨p, s, hps⟩ := mem_split (hp.mem_iff.1 hc)
        rw [hdeg p s c hps]
        have hll : l.length = p.length + s.length + 1 := by rw [hps]; simp; omega
        rcases Nat.eq_zero_or_pos p.length with hp0 | hp0
        · have : p = [] := List.length_eq_zero_iff.1 hp0
          rw [if_pos this]
          rcases Nat.eq_zero_or_pos s.length with hs0 | hs0
          · rw [if_pos (List.length_eq_zero_iff.1 hs0)]; omega
          · rw [if_neg (List.ne_nil_of_length_pos hs0)]; omega
        · rw [if_neg (List.ne_nil_of_length_pos hp0)]
          rcases Nat.eq_zero_or_pos s.length with hs0 | hs0
          · rw [if_pos (List.length_eq_zero_iff.1 hs0)]; omega
          · omega
      obtain ⟨c0, hc0⟩ := List.exists_mem_of_length_pos hpos
      have hmn : minDeg m cells = l.length - 1 := by
        have hle := (foldl_min_le (cells.map (deg m cells)) cells.length).2 _
          (List.mem_map_of_mem hc0)
        rw [hc c0 hc0] at hle
        rcases foldl_min_mem (cells.map (deg m cells)) cells.length with h | h
        · rw [h] at hle; omega
        · obtain ⟨c, hcc, he⟩ := List.mem_map.1 h
          rw [hc c hcc] at he; exact he.symm
      have hmx : maxDeg m cells = l.length - 1 := by
        have hle := (foldl_max_le (cells.map (deg m cells)) 0).2 _ (List.mem_map_of_mem hc0)
        rw [hc c0 hc0] at hle
        rcases foldl_max_mem (cells.map (deg m cells)) 0 with h | h
        · rw [h] at hle
          show (cells.map (deg m cells)).foldl max 0 = _
          rw [h]; omega
        · obtain ⟨c, hcc, he⟩ := List.mem_map.1 h
          rw [hc c hcc] at he; exact he.symm
      rw [hmn, hmx]
    rw [hall]
    simp only [ne_eq, not_true_eq_false, false_and, if_false]
    cases hcs : cells with
    | nil => simp [hcs] at hpos
    | cons c cs =>
      rw [hcs] at hp
      refine greedy_chain hl hp ?_
      obtain ⟨p, s, hps⟩ := mem_split (hp.mem_iff.1 (List.mem_cons_self))
      have hll : l.length = p.length + s.length + 1 := by rw [hps]; simp; omega
      rcases Nat.eq_zero_or_pos p.length with hp0 | hp0
      · left; rw [hps, List.length_eq_zero_iff.1 hp0]; rfl
      · right
        have : s = [] := List.length_eq_zero_iff.1 (by omega)
        rw [hps, this]; simp

end TDy.Traverse.Proofs
