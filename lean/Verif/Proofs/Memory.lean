import Verif.Spec.Memory
import Mathlib.Data.List.Induction
import Mathlib.Tactic.Set
import Mathlib.Tactic.ByContra
import Mathlib.Order.Basic

/-! # Proofs about allocation and release -/

namespace TDy.Mem.Proofs

open TDy TDy.Mem TDy.Mem.Spec

/-- `F` releases `o` in every heap in which all blocks of `o` are live. -/
def Freeable (F : Obj → Heap → Res Heap) (o : Obj) : Prop :=
  ∀ g : Heap, (∀ b, Owns o b → g.live b = true) →
    ∃ g', F o g = .ok g' ∧ g'.next = g.next ∧
      (∀ b, Owns o b → g'.live b = false) ∧ ∀ b, ¬ Owns o b → g'.live b = g.live b

/-- What an allocation does: the new blocks are those of the object. -/
structure Alloc (A : Heap → Obj × Heap) (F : Obj → Heap → Res Heap) (h : Heap) : Prop where
  mono : h.next ≤ (A h).2.next
  fresh : Fresh (A h).2
  old : ∀ b, b < h.next → (A h).2.live b = h.live b
  new : ∀ b, h.next ≤ b → b < (A h).2.next → (A h).2.live b = true
  owns : ∀ b, Owns (A h).1 b ↔ h.next ≤ b ∧ b < (A h).2.next
  null : (A h).1.base = none → ∀ b, ¬ Owns (A h).1 b
  freeable : Freeable F (A h).1

def Pair (A : Heap → Obj × Heap) (F : Obj → Heap → Res Heap) : Prop := ∀ h, Fresh h → Alloc A F h

theorem not_owns_none (b : Nat) : ¬ Owns (.leaf none) b := by
  intro h; cases h

theorem owns_leaf {p : Ptr} {b : Nat} : Owns (.leaf p) b ↔ p = some b := by
  constructor
  · intro h; cases h; rfl
  · rintro rfl; exact .leaf b

theorem owns_node {p : Ptr} {cap : Nat} {e : Nat → Obj} {b : Nat} :
    Owns (.node p cap e) b ↔ p = some b ∨ ∃ i, i < cap ∧ Owns (e i) b := by
  constructor
  · intro h
    cases h with
    | base => exact .inl rfl
    | entry i hi ho => exact .inr ⟨_, ‹_›, ‹_›⟩
  · rintro (rfl | ⟨i, hi, ho⟩)
    · exact .base b cap e
    · exact .entry p cap e i b hi ho

theorem alloc_zero (h : Heap) : alloc 0 h = (none, h) := by simp [alloc]

theorem alloc_pos {n : Nat} (hn : n ≠ 0) (h : Heap) :
    alloc n h = (some h.next, ⟨h.next + 1, wr h.live h.next true⟩) := by simp [alloc, hn]

theorem fresh_succ {h : Heap} (hf : Fresh h) : Fresh ⟨h.next + 1, wr h.live h.next true⟩ := by
  intro b hb
  dsimp only at hb ⊢
  rw [wr_other _ _ (by omega)]
  exact hf b (by omega)

theorem pair1 (n : Nat) : Pair (alloc1 n) free1 := by
  intro h hf
  by_cases hn : n = 0
  · subst hn
    have e : alloc1 0 h = (.leaf none, h) := by simp [alloc1, alloc_zero]
    refine ⟨Nat.le_of_eq (by rw [e]), by rw [e]; exact hf, by rw [e]; intros; rfl, ?_, ?_, ?_, ?_⟩ <;> rw [e]
    · intro b h1 h2; dsimp only at h2; omega
    · intro b; dsimp only
      exact ⟨fun h => absurd h (not_owns_none b), fun h => by omega⟩
    · intro _ b; exact not_owns_none b
    · intro g _
      exact ⟨g, rfl, rfl, fun b h => absurd h (not_owns_none b), fun _ _ => rfl⟩
  · have e : alloc1 n h = (.leaf (some h.next), ⟨h.next + 1, wr h.live h.next true⟩) := by
      simp [alloc1, alloc_pos hn]
    refine ⟨by rw [e]; simp, by rw [e]; exact fresh_succ hf, ?_, ?_, ?_, ?_, ?_⟩ <;> rw [e]
    · intro b hb; exact wr_other _ _ (by omega)
    · intro b h1 h2; dsimp only at h2 ⊢
      have : b = h.next := by omega
      subst this; simp
    · intro b; dsimp only; rw [owns_leaf, Option.some.injEq]; omega
    · intro hc; simp [Obj.base] at hc
    · intro g hg
      have hl := hg h.next (.leaf _)
      refine ⟨⟨g.next, wr g.live h.next false⟩, ?_, rfl, ?_, ?_⟩
      · simp [free1, free, hl]
      · intro b hb; rw [owns_leaf, Option.some.injEq] at hb; subst hb; simp
      · intro b hb; rw [owns_leaf, Option.some.injEq] at hb
        exact wr_other _ _ (fun h => hb h.symm)

section lift
variable (inner : Heap → Obj × Heap)

/-- The loop of `allocN`. -/
def loop (s : (Nat → Obj) × Heap) (n : Nat) : (Nat → Obj) × Heap :=
  forN n (fun i (s : (Nat → Obj) × Heap) => (wr s.1 i (inner s.2).1, (inner s.2).2)) s

theorem loop_succ (s : (Nat → Obj) × Heap) (n : Nat) : loop inner s (n+1) =
    (wr (loop inner s n).1 n (inner (loop inner s n).2).1, (inner (loop inner s n).2).2) := rfl

variable {inner} {F : Obj → Heap → Res Heap} (hp : Pair inner F)
include hp

theorem loop_spec (e0 : Nat → Obj) (h : Heap) (hf : Fresh h) (n : Nat) :
    Fresh (loop inner (e0, h) n).2 ∧
    (∀ i j, i ≤ j → j ≤ n → (loop inner (e0, h) i).2.next ≤ (loop inner (e0, h) j).2.next) ∧
    (∀ b, b < h.next → (loop inner (e0, h) n).2.live b = h.live b) ∧
    (∀ b, h.next ≤ b → b < (loop inner (e0, h) n).2.next → (loop inner (e0, h) n).2.live b = true) ∧
    (∀ i, i < n → (loop inner (e0, h) n).1 i = (inner (loop inner (e0, h) i).2).1 ∧
      Fresh (loop inner (e0, h) i).2) ∧
    (∀ i, n ≤ i → (loop inner (e0, h) n).1 i = e0 i) := by
  induction n with
  | zero =>
    refine ⟨hf, ?_, fun _ _ => rfl, ?_, fun i hi => by omega, fun _ _ => rfl⟩
    · intro i j h1 h2
      have : i = 0 := by omega
      have : j = 0 := by omega
      subst_vars; exact Nat.le_refl _
    · intro b h1 h2; exact absurd h2 (by show ¬ b < h.next; omega)
  | succ n ih =>
    obtain ⟨f1, f2, f3, f4, f5, f6⟩ := ih
    have a := hp _ f1
    have h0 : h.next ≤ (loop inner (e0, h) n).2.next := f2 0 n (by omega) (by omega)
    refine ⟨a.fresh, ?_, ?_, ?_, ?_, ?_⟩
    · intro i j h1 h2
      by_cases hj : j = n + 1
      · subst hj
        by_cases hi : i = n + 1
        · subst hi; exact Nat.le_refl _
        · exact Nat.le_trans (f2 i n (by omega) (by omega)) a.mono
      · exact f2 i j h1 (by omega)
    · intro b hb
      rw [loop_succ]
      rw [a.old b (by omega), f3 b hb]
    · intro b h1 h2
      rw [loop_succ] at h2 ⊢
      by_cases hb : b < (loop inner (e0, h) n).2.next
      · rw [a.old b hb]; exact f4 b h1 hb
      · exact a.new b (by omega) h2
    · intro i hi
      rw [loop_succ]
      by_cases hin : i = n
      · subst hin; exact ⟨by simp, f1⟩
      · dsimp only
        rw [wr_other _ _ hin]; exact f5 i (by omega)
    · intro i hi
      rw [loop_succ]; dsimp only
      rw [wr_other _ _ (by omega)]; exact f6 i (by omega)

omit hp in
theorem allocN_eq (n : Nat) (h : Heap) : allocN n inner h =
    (.node (alloc n h).1 (8*n) (loop inner (fun _ => .leaf none, (alloc n h).2) n).1,
      (loop inner (fun _ => .leaf none, (alloc n h).2) n).2) := rfl

omit hp in
/-- The loop of `freeN`. -/
theorem free_loop (e : Nat → Obj) (cap n : Nat) (hc : n ≤ cap) (hfr : ∀ i, i < n → Freeable F (e i))
    (hdis : ∀ i j b, i < n → j < n → Owns (e i) b → Owns (e j) b → i = j) (g : Heap)
    (hg : ∀ i b, i < n → Owns (e i) b → g.live b = true) :
    ∃ g', forN n (fun i (r : Res Heap) => r.bind fun h => if i < cap then F (e i) h else .ub) (.ok g)
        = .ok g' ∧ g'.next = g.next ∧ (∀ b, (∃ i, i < n ∧ Owns (e i) b) → g'.live b = false) ∧
      ∀ b, (¬ ∃ i, i < n ∧ Owns (e i) b) → g'.live b = g.live b := by
  induction n with
  | zero => exact ⟨g, rfl, rfl, fun b ⟨i, hi, _⟩ => by omega, fun _ _ => rfl⟩
  | succ n ih =>
    obtain ⟨g1, e1, n1, z1, k1⟩ := ih (by omega) (fun i hi => hfr i (by omega))
      (fun i j b hi hj => hdis i j b (by omega) (by omega)) (fun i b hi => hg i b (by omega))
    obtain ⟨g2, e2, n2, z2, k2⟩ := hfr n (by omega) g1 (by
      intro b hb
      rw [k1 b (by
        rintro ⟨i, hi, ho⟩
        have := hdis i n b (by omega) (by omega) ho hb
        omega)]
      exact hg n b (by omega) hb)
    refine ⟨g2, ?_, by rw [n2, n1], ?_, ?_⟩
    · simp only [forN]
      rw [e1]; simp only [Res.bind]
      rw [if_pos (by omega), e2]
    · rintro b ⟨i, hi, ho⟩
      by_cases hn : Owns (e n) b
      · exact z2 b hn
      · rw [k2 b hn]
        refine z1 b ⟨i, ?_, ho⟩
        have : i ≠ n := by rintro rfl; exact hn ho
        omega
    · intro b hb
      rw [k2 b (fun ho => hb ⟨n, by omega, ho⟩)]
      exact k1 b (fun ⟨i, hi, ho⟩ => hb ⟨i, by omega, ho⟩)

theorem pairN (n : Nat) : Pair (allocN n inner) (freeN n F) := by
  intro h hf
  by_cases hn : n = 0
  · subst hn
    have e : allocN 0 inner h = (.node none 0 (fun _ => .leaf none), h) := by
      rw [allocN_eq, alloc_zero]; rfl
    have no : ∀ b, ¬ Owns (.node none 0 (fun _ => .leaf none)) b := by
      intro b hb; rw [owns_node] at hb
      rcases hb with hb | ⟨i, hi, _⟩
      · cases hb
      · omega
    refine ⟨Nat.le_of_eq (by rw [e]), by rw [e]; exact hf, by rw [e]; intros; rfl, ?_, ?_, ?_, ?_⟩ <;> rw [e]
    · intro b h1 h2; dsimp only at h2; omega
    · intro b; dsimp only
      exact ⟨fun h => absurd h (no b), fun h => by omega⟩
    · intro _ b; exact no b
    · intro g _
      exact ⟨g, rfl, rfl, fun b h => absurd h (no b), fun _ _ => rfl⟩
  · have ea := alloc_pos hn h
    set h1 : Heap := ⟨h.next + 1, wr h.live h.next true⟩ with hh1
    have hf1 : Fresh h1 := fresh_succ hf
    have e := allocN_eq (inner := inner) n h
    rw [ea] at e; dsimp only at e
    obtain ⟨f1, f2, f3, f4, f5, f6⟩ := loop_spec hp (fun _ => .leaf none) h1 hf1 n
    set L := loop inner (fun _ => .leaf none, h1) with hL
    have hm : ∀ i, i ≤ n → h1.next ≤ (L i).2.next := fun i hi => f2 0 i (by omega) hi
    have h1n : h1.next = h.next + 1 := rfl
    have own : ∀ i, i < n → ∀ b, Owns ((L n).1 i) b ↔ (L i).2.next ≤ b ∧ b < (L (i+1)).2.next := by
      intro i hi b
      rw [(f5 i hi).1, (hp _ (f5 i hi).2).owns b]; rfl
    have own' : ∀ b, (∃ i, i < n ∧ Owns ((L n).1 i) b) ↔ h1.next ≤ b ∧ b < (L n).2.next := by
      intro b
      constructor
      · rintro ⟨i, hi, ho⟩
        have := (own i hi b).1 ho
        exact ⟨Nat.le_trans (hm i (by omega)) this.1, Nat.lt_of_lt_of_le this.2 (f2 (i+1) n (by omega) (Nat.le_refl _))⟩
      · rintro ⟨a1, a2⟩
        have key : ∀ k, k ≤ n → b < (L k).2.next → ∃ i, i < k ∧ (L i).2.next ≤ b ∧ b < (L (i+1)).2.next := by
          intro k
          induction k with
          | zero => intro _ hb; exact absurd hb (by show ¬ b < h1.next; omega)
          | succ k ih =>
            intro hk hb
            by_cases hb' : b < (L k).2.next
            · obtain ⟨i, hi, hh⟩ := ih (by omega) hb'
              exact ⟨i, by omega, hh⟩
            · exact ⟨k, by omega, by omega, hb⟩
        obtain ⟨i, hi, hh⟩ := key n (Nat.le_refl _) a2
        exact ⟨i, hi, (own i hi b).2 hh⟩
    have ownC : ∀ b, (∃ i, i < 8*n ∧ Owns ((L n).1 i) b) ↔ ∃ i, i < n ∧ Owns ((L n).1 i) b := by
      intro b
      constructor
      · rintro ⟨i, hi, ho⟩
        by_cases h' : i < n
        · exact ⟨i, h', ho⟩
        · rw [f6 i (by omega)] at ho; exact absurd ho (not_owns_none b)
      · rintro ⟨i, hi, ho⟩; exact ⟨i, by omega, ho⟩
    have ownN : ∀ b, Owns (.node (some h.next) (8*n) (L n).1) b ↔ h.next ≤ b ∧ b < (L n).2.next := by
      intro b
      rw [owns_node, ownC, own', Option.some.injEq]
      have := hm n (Nat.le_refl _)
      omega
    refine ⟨?_, by rw [e]; exact f1, ?_, ?_, by rw [e]; exact ownN, ?_, ?_⟩ <;> rw [e] <;> dsimp only
    · have := hm n (Nat.le_refl _); omega
    · intro b hb
      rw [f3 b (by omega)]; exact wr_other _ _ (by omega)
    · intro b b1 b2
      by_cases hb : b = h.next
      · subst hb; rw [f3 _ (by omega)]; simp [hh1]
      · exact f4 b (by omega) b2
    · intro hc; simp [Obj.base] at hc
    · intro g hg
      obtain ⟨g1, e1, n1, z1, k1⟩ := free_loop (L n).1 (8*n) n (by omega)
        (fun i hi => by rw [(f5 i hi).1]; exact (hp _ (f5 i hi).2).freeable)
        (fun i j b hi hj ho1 ho2 => by
          rw [own i hi b] at ho1; rw [own j hj b] at ho2
          by_contra hne
          rcases Nat.lt_or_gt_of_ne hne with h' | h'
          · have := f2 (i+1) j (by omega) (by omega); omega
          · have := f2 (j+1) i (by omega) (by omega); omega)
        g (fun i b hi ho => hg b (owns_node.2 (.inr ⟨i, by omega, ho⟩)))
      have hb1 : g1.live h.next = true := by
        rw [k1 _ (by rw [own']; omega)]
        exact hg _ (.base _ _ _)
      refine ⟨⟨g1.next, wr g1.live h.next false⟩, ?_, n1, ?_, ?_⟩
      · simp only [freeN]
        rw [e1]; simp [Res.bind, free, hb1]
      · intro b hb
        rw [owns_node, ownC] at hb
        by_cases h' : b = h.next
        · subst h'; simp
        · rw [Option.some.injEq] at hb
          dsimp only
          rw [wr_other _ _ h']
          exact z1 b (hb.resolve_left (fun h => h' h.symm))
      · intro b hb
        rw [owns_node, ownC, Option.some.injEq] at hb
        dsimp only
        rw [wr_other _ _ (fun h => hb (.inl h.symm))]
        exact k1 b (fun h => hb (.inr h))

end lift

/-- The release has the sizes of the allocation. -/
def Fits : Shape → FShape → Prop
  | .d1 _, .d1 => True
  | .d2 n1 _, .d2 m1 => n1 = m1
  | .d3 n1 n2 _, .d3 m1 m2 => n1 = m1 ∧ n2 = m2
  | .d4 n1 n2 n3 _, .d4 m1 m2 m3 => n1 = m1 ∧ n2 = m2 ∧ n3 = m3
  | _, _ => False

theorem pair_shape (s : Shape) (f : FShape) (hf : Fits s f) : Pair s.alloc f.free := by
  cases s <;> cases f <;> simp only [Fits] at hf
  · exact pair1 _
  · subst hf; exact pairN (pair1 _) _
  · obtain ⟨rfl, rfl⟩ := hf; exact pairN (pairN (pair1 _) _) _
  · obtain ⟨rfl, rfl, rfl⟩ := hf; exact pairN (pairN (pairN (pair1 _) _) _) _

section lists
variable {N : Type} [DecidableEq N] {shape : N → Shape} {fshape : N → FShape}

/-- The state after some allocations that started at heap `h0`. -/
structure After (fshape : N → FShape) (names : List N) (h0 : Heap) (c : N → Obj) (h : Heap) : Prop where
  mono : h0.next ≤ h.next
  fresh : Fresh h
  old : ∀ b, b < h0.next → h.live b = h0.live b
  new : ∀ b, h0.next ≤ b → b < h.next → h.live b = true
  cov : ∀ b, h0.next ≤ b → b < h.next → ∃ x, x ∈ names ∧ Owns (c x) b
  rng : ∀ x b, x ∈ names → Owns (c x) b → h0.next ≤ b ∧ b < h.next
  dis : ∀ x y b, x ∈ names → y ∈ names → Owns (c x) b → Owns (c y) b → x = y
  out : ∀ x, x ∉ names → c x = .leaf none
  null : ∀ x, (c x).base = none → ∀ b, ¬ Owns (c x) b
  free : ∀ x, x ∈ names → Freeable (fshape x).free (c x)

theorem allocAll_snoc (names : List N) (x : N) (s : (N → Obj) × Heap) :
    allocAll shape (names ++ [x]) s =
      (Function.update (allocAll shape names s).1 x ((shape x).alloc (allocAll shape names s).2).1,
        ((shape x).alloc (allocAll shape names s).2).2) := by
  simp [allocAll, List.foldl_append]

theorem after_allocAll (any : N → FShape) (names : List N) (hnd : names.Nodup)
    (hfit : ∀ x, x ∈ names → Fits (shape x) (any x)) (h0 : Heap)
    (hf : Fresh h0) :
    After any names h0 (allocAll shape names (cleared, h0)).1
      (allocAll shape names (cleared, h0)).2 := by
  induction names using List.reverseRecOn with
  | nil =>
    exact ⟨(Nat.le_refl _), hf, fun _ _ => rfl, fun b h1 h2 => absurd h2 (by show ¬ b < h0.next; omega),
      fun b h1 h2 => absurd h2 (by show ¬ b < h0.next; omega), by simp, by simp, fun _ _ => rfl,
      fun _ _ b => not_owns_none b, by simp⟩
  | append_singleton names x ih =>
    have hnd' : names.Nodup := (List.nodup_append.1 hnd).1
    have hx : x ∉ names := by
      intro hx
      exact (List.nodup_append.1 hnd).2.2 x hx x (by simp) rfl
    have I := ih hnd' (fun y hy => hfit y (by simp [hy]))
    rw [allocAll_snoc]
    generalize hs : allocAll shape names (cleared, h0) = s at I
    obtain ⟨c, h⟩ := s
    dsimp only at I ⊢
    have a := pair_shape (shape x) (any x) (hfit x (by simp)) h I.fresh
    have cx : ∀ y, y ∈ names → Function.update c x ((shape x).alloc h).1 y = c y := by
      intro y hy; rw [Function.update_of_ne (by rintro rfl; exact hx hy)]
    have m0 := I.mono
    have m1 := a.mono
    refine ⟨by omega, a.fresh, ?_, ?_, ?_, ?_, ?_, ?_, ?_, ?_⟩
    · intro b hb; rw [a.old b (by omega), I.old b hb]
    · intro b h1 h2
      by_cases hb : b < h.next
      · rw [a.old b hb]; exact I.new b h1 hb
      · exact a.new b (by omega) h2
    · intro b h1 h2
      by_cases hb : b < h.next
      · obtain ⟨y, hy, ho⟩ := I.cov b h1 hb
        exact ⟨y, by simp [hy], by rw [cx y hy]; exact ho⟩
      · exact ⟨x, by simp, by rw [Function.update_self, a.owns]; omega⟩
    · intro y b hy ho
      rw [List.mem_append, List.mem_singleton] at hy
      rcases hy with hy | rfl
      · rw [cx y hy] at ho
        have := I.rng y b hy ho; omega
      · rw [Function.update_self, a.owns] at ho; omega
    · intro y z b hy hz ho1 ho2
      rw [List.mem_append, List.mem_singleton] at hy hz
      rcases hy with hy | rfl <;> rcases hz with hz | rfl
      · rw [cx y hy] at ho1; rw [cx z hz] at ho2
        exact I.dis y z b hy hz ho1 ho2
      · rw [cx y hy] at ho1; rw [Function.update_self, a.owns] at ho2
        have := I.rng y b hy ho1; omega
      · rw [cx z hz] at ho2; rw [Function.update_self, a.owns] at ho1
        have := I.rng z b hz ho2; omega
      · rfl
    · intro y hy
      rw [List.mem_append, List.mem_singleton, not_or] at hy
      rw [Function.update_of_ne hy.2]; exact I.out y hy.1
    · intro y hn
      by_cases hyx : y = x
      · subst hyx
        rw [Function.update_self] at hn ⊢; exact a.null hn
      · rw [Function.update_of_ne hyx] at hn ⊢; exact I.null y hn
    · intro y hy
      rw [List.mem_append, List.mem_singleton] at hy
      rcases hy with hy | rfl
      · rw [cx y hy]; exact I.free y hy
      · rw [Function.update_self]; exact a.freeable

/-- One step of `freeAll`. -/
def step (fshape : N → FShape) (guarded : N → Bool) (c : N → Obj) (x : N) (h : Heap) : Res Heap :=
  if guarded x && (c x).base.isNone then .ok h else (fshape x).free (c x) h

omit [DecidableEq N] in
theorem freeAll_snoc (guarded : N → Bool) (names : List N) (x : N) (c : N → Obj) (h : Heap) :
    freeAll fshape guarded (names ++ [x]) c h =
      (freeAll fshape guarded names c h).bind (step fshape guarded c x) := by
  simp only [freeAll, List.foldl_append, List.foldl_cons, List.foldl_nil]; rfl

omit [DecidableEq N] in
theorem step_ok (guarded : N → Bool) (c : N → Obj) (x : N)
    (hn : (c x).base = none → ∀ b, ¬ Owns (c x) b)
    (hx : Freeable (fshape x).free (c x) ∨ (guarded x = true ∧ (c x).base = none)) :
    Freeable (fun _ => step fshape guarded c x) (c x) := by
  intro g hg
  by_cases hs : (guarded x && (c x).base.isNone) = true
  · have hb : (c x).base = none := by
      rw [Bool.and_eq_true] at hs; exact Option.isNone_iff_eq_none.1 hs.2
    refine ⟨g, by simp only [step]; rw [if_pos hs], rfl, fun b ho => absurd ho (hn hb b), fun _ _ => rfl⟩
  · rcases hx with hx | ⟨h1, h2⟩
    · obtain ⟨g', e, r⟩ := hx g hg
      exact ⟨g', by simp only [step]; rw [if_neg hs, e], r⟩
    · exact absurd (by rw [h1, h2]; rfl) hs

omit [DecidableEq N] in
theorem freeAll_spec (guarded : N → Bool) (names : List N) (hnd : names.Nodup) (c : N → Obj) (h : Heap)
    (hn : ∀ x, x ∈ names → (c x).base = none → ∀ b, ¬ Owns (c x) b)
    (hx : ∀ x, x ∈ names → Freeable (fshape x).free (c x) ∨ (guarded x = true ∧ (c x).base = none))
    (hdis : ∀ x y b, x ∈ names → y ∈ names → Owns (c x) b → Owns (c y) b → x = y)
    (hl : ∀ x b, x ∈ names → Owns (c x) b → h.live b = true) :
    ∃ h', freeAll fshape guarded names c h = .ok h' ∧ h'.next = h.next ∧
      (∀ b, (∃ x, x ∈ names ∧ Owns (c x) b) → h'.live b = false) ∧
      ∀ b, (¬ ∃ x, x ∈ names ∧ Owns (c x) b) → h'.live b = h.live b := by
  induction names using List.reverseRecOn with
  | nil => exact ⟨h, rfl, rfl, fun b ⟨x, hx, _⟩ => by simp at hx, fun _ _ => rfl⟩
  | append_singleton names x ih =>
    have hnd' : names.Nodup := (List.nodup_append.1 hnd).1
    have hxn : x ∉ names := by
      intro hx
      exact (List.nodup_append.1 hnd).2.2 x hx x (by simp) rfl
    have mem : ∀ y, y ∈ names → y ∈ names ++ [x] := fun y hy => by simp [hy]
    obtain ⟨h1, e1, n1, z1, k1⟩ := ih hnd' (fun y hy => hn y (mem y hy)) (fun y hy => hx y (mem y hy))
      (fun y z b hy hz => hdis y z b (mem y hy) (mem z hz)) (fun y b hy => hl y b (mem y hy))
    obtain ⟨h2, e2, n2, z2, k2⟩ := step_ok guarded c x (hn x (by simp)) (hx x (by simp)) h1 (by
      intro b ho
      rw [k1 b (by
        rintro ⟨y, hy, ho'⟩
        have := hdis y x b (mem y hy) (by simp) ho' ho
        subst this; exact hxn hy)]
      exact hl x b (by simp) ho)
    refine ⟨h2, ?_, by rw [n2, n1], ?_, ?_⟩
    · rw [freeAll_snoc, e1]; exact e2
    · rintro b ⟨y, hy, ho⟩
      by_cases hb : Owns (c x) b
      · exact z2 b hb
      · rw [k2 b hb]
        rw [List.mem_append, List.mem_singleton] at hy
        rcases hy with hy | rfl
        · exact z1 b ⟨y, hy, ho⟩
        · exact absurd ho hb
    · intro b hb
      rw [k2 b (fun ho => hb ⟨x, by simp, ho⟩)]
      exact k1 b (fun ⟨y, hy, ho⟩ => hb ⟨y, mem y hy, ho⟩)

end lists

end TDy.Mem.Proofs
