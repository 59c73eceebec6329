import Verif.Proofs.Memory
import Mathlib.Order.Interval.Finset.Nat
import Mathlib.Algebra.Order.Group.Nat

/-!
# C157 - C159: memory is released
-/

namespace TDy.Mem.Props

open TDy TDy.Mem TDy.Mem.Spec TDy.Mem.Proofs

/-! ## C157 -/

theorem releasesExactly {F : Obj → Heap → Res Heap} {o : Obj} (h : Freeable F o) :
    ReleasesExactly F o := by
  intro g hg
  obtain ⟨g', e, _, z, k⟩ := h g hg
  refine ⟨g', e, fun b => ?_⟩
  by_cases ho : Owns o b
  · simp [z b ho, ho]
  · simp [k b ho, ho]

theorem allocatesOnly {A : Heap → Obj × Heap} {F : Obj → Heap → Res Heap} {h : Heap} (hf : Fresh h)
    (a : Alloc A F h) : AllocatesOnly A h := by
  constructor
  · intro b
    rw [a.owns]
    by_cases h1 : b < h.next
    · rw [a.old b h1]
      constructor
      · exact .inl
      · rintro (h | h)
        · exact h
        · omega
    · rw [hf b (by omega)]
      by_cases h2 : b < (A h).2.next
      · simp [a.new b (by omega) h2, h2]; omega
      · simp [a.fresh b (by omega), h2]
  · intro b ho
    rw [a.owns] at ho
    exact hf b ho.1

theorem fits_all :
    (∀ n, Fits (.d1 n) .d1) ∧ (∀ n1 n2, Fits (.d2 n1 n2) (.d2 n1)) ∧
    (∀ n1 n2 n3, Fits (.d3 n1 n2 n3) (.d3 n1 n2)) ∧
    (∀ n1 n2 n3 n4, Fits (.d4 n1 n2 n3 n4) (.d4 n1 n2 n3)) := by
  simp [Fits]

/-- Arrays of one to four dimensions, of all sizes including zero: an allocation only adds blocks of its
own, and the release with the same sizes removes exactly these, whenever it comes. -/
theorem C157_arrays_are_released (h : Heap) (hf : Fresh h) :
    (∀ n, AllocatesOnly (alloc1 n) h ∧ ReleasesExactly free1 (alloc1 n h).1) ∧
    (∀ n1 n2, AllocatesOnly (alloc2 n1 n2) h ∧ ReleasesExactly (free2 n1) (alloc2 n1 n2 h).1) ∧
    (∀ n1 n2 n3, AllocatesOnly (alloc3 n1 n2 n3) h ∧
      ReleasesExactly (free3 n1 n2) (alloc3 n1 n2 n3 h).1) ∧
    (∀ n1 n2 n3 n4, AllocatesOnly (alloc4 n1 n2 n3 n4) h ∧
      ReleasesExactly (free4 n1 n2 n3) (alloc4 n1 n2 n3 n4 h).1) := by
  obtain ⟨f1, f2, f3, f4⟩ := fits_all
  have key : ∀ s f, Fits s f → AllocatesOnly s.alloc h ∧ ReleasesExactly f.free (s.alloc h).1 := by
    intro s f hsf
    have a := pair_shape s f hsf h hf
    exact ⟨allocatesOnly hf a, releasesExactly a.freeable⟩
  exact ⟨fun n => key _ _ (f1 n), fun n1 n2 => key _ _ (f2 n1 n2), fun n1 n2 n3 => key _ _ (f3 n1 n2 n3),
    fun n1 n2 n3 n4 => key _ _ (f4 n1 n2 n3 n4)⟩

theorem owns_row {inner : Heap → Obj × Heap} {F : Obj → Heap → Res Heap} (hp : Pair inner F) (n : Nat)
    (h : Heap) (hf : Fresh h) :
    ∃ (p : Ptr) (e : Nat → Obj), (allocN n inner h).1 = .node p (8*n) e ∧
      (∀ i, i < n → ∃ g, Fresh g ∧ e i = (inner g).1) ∧
      (∀ i j b, i < n → j < n → Owns (e i) b → Owns (e j) b → i = j) := by
  have hfa : Fresh (alloc n h).2 := by
    by_cases hn : n = 0
    · subst hn; rw [alloc_zero]; exact hf
    · rw [alloc_pos hn]; exact fresh_succ hf
  obtain ⟨f1, f2, f3, f4, f5, f6⟩ := loop_spec hp (fun _ => .leaf none) _ hfa n
  refine ⟨_, _, by rw [allocN_eq], fun i hi => ⟨_, (f5 i hi).2, (f5 i hi).1⟩, ?_⟩
  intro i j b hi hj ho1 ho2
  rw [(f5 i hi).1, (hp _ (f5 i hi).2).owns] at ho1
  rw [(f5 j hj).1, (hp _ (f5 j hj).2).owns] at ho2
  have s : ∀ k, (loop inner (fun _ => .leaf none, (alloc n h).2) (k+1)).2.next =
    (inner (loop inner (fun _ => .leaf none, (alloc n h).2) k).2).2.next := fun k => rfl
  by_contra hne
  rcases Nat.lt_or_gt_of_ne hne with h' | h'
  · have := f2 (i+1) j (by omega) (by omega); rw [s] at this; omega
  · have := f2 (j+1) i (by omega) (by omega); rw [s] at this; omega

/-- The rows of a matrix are separate blocks: each of the first `n1` entries is a block of its own. -/
theorem C157_rows_do_not_overlap (h : Heap) (hf : Fresh h) (n1 n2 : Nat) (hn : 0 < n2) :
    ∃ (p : Ptr) (cap : Nat) (e : Nat → Obj) (row : Nat → Nat),
      (alloc2 n1 n2 h).1 = .node p cap e ∧ n1 ≤ cap ∧
      (∀ i, i < n1 → e i = .leaf (some (row i)) ∧ (alloc2 n1 n2 h).2.live (row i) = true ∧
        h.live (row i) = false ∧ p ≠ some (row i)) ∧
      (∀ i j, i < n1 → j < n1 → row i = row j → i = j) := by
  obtain ⟨p, e, he, hi, hd⟩ := owns_row (pair1 n2) n1 h hf
  have row : ∀ i, i < n1 → ∃ b, e i = .leaf (some b) := by
    intro i h'
    obtain ⟨g, _, hg⟩ := hi i h'
    exact ⟨g.next, by rw [hg]; simp [alloc1, alloc_pos (by omega : n2 ≠ 0)]⟩
  choose! r hr using row
  have a := pair_shape (.d2 n1 n2) (.d2 n1) rfl h hf
  have ao := allocatesOnly hf a
  have ow : ∀ i, i < n1 → Owns (alloc2 n1 n2 h).1 (r i) := by
    intro i h'
    rw [show alloc2 n1 n2 h = allocN n1 (alloc1 n2) h from rfl, he]
    exact .entry _ _ _ i _ (by omega) (by rw [hr i h']; exact .leaf _)
  refine ⟨p, 8*n1, e, r, he, by omega, ?_, ?_⟩
  · intro i h'
    refine ⟨hr i h', (ao.1 _).2 (.inr (ow i h')), ao.2 _ (ow i h'), ?_⟩
    rintro hp
    have hp' : (alloc n1 h).1 = some (r i) := by
      have := he
      rw [allocN_eq] at this
      injection this with h1 h2 h3
      rw [h1, hp]
    rw [alloc_pos (by omega)] at hp'
    have hlt : (alloc n1 h).2.next ≤ r i := by
      obtain ⟨f1, f2, f3, f4, f5, f6⟩ := loop_spec (pair1 n2) (fun _ => .leaf none) (alloc n1 h).2
        (by rw [alloc_pos (by omega)]; exact fresh_succ hf) n1
      have hei : e i = (loop (alloc1 n2) (fun _ => .leaf none, (alloc n1 h).2) n1).1 i := by
        have := he
        rw [allocN_eq] at this
        injection this with h1 h2 h3
        rw [h3]
      have : Owns (e i) (r i) := by rw [hr i h']; exact .leaf _
      rw [hei, (f5 i h').1, (pair1 n2 _ (f5 i h').2).owns] at this
      exact Nat.le_trans (f2 0 i (by omega) (by omega)) this.1
    rw [alloc_pos (by omega)] at hlt
    dsimp only at hp' hlt
    rw [Option.some.injEq] at hp'
    omega
  · intro i j h1 h2 hij
    exact hd i j (r i) h1 h2 (by rw [hr i h1]; exact .leaf _) (by rw [hr j h2, hij]; exact .leaf _)

/-- The release for one dimension, given a matrix, gives back the block of the pointers and nothing
else: the rows stay live. -/
theorem C157_flat_release (h : Heap) (hf : Fresh h) (n1 n2 : Nat) (hn : 0 < n2) (hn1 : 0 < n1) :
    ∃ (b : Nat) (h' : Heap), free1 (alloc2 n1 n2 h).1 (alloc2 n1 n2 h).2 = .ok h' ∧
      Owns (alloc2 n1 n2 h).1 b ∧ (alloc2 n1 n2 h).2.live b = true ∧
      (∀ c, h'.live c = true ↔ (alloc2 n1 n2 h).2.live c = true ∧ c ≠ b) ∧
      (∃ c, Owns (alloc2 n1 n2 h).1 c ∧ h.live c = false ∧ h'.live c = true) := by
  obtain ⟨p, cap, e, row, he, hc, hr, -⟩ := C157_rows_do_not_overlap h hf n1 n2 hn
  have hp : p = some h.next := by
    have := he
    rw [alloc2, allocN_eq] at this
    injection this with h1 h2 h3
    rw [← h1, alloc_pos (by omega)]
  subst hp
  have ao := allocatesOnly hf (pair_shape (.d2 n1 n2) (.d2 n1) rfl h hf)
  have ob : Owns (alloc2 n1 n2 h).1 h.next := by rw [he]; exact .base _ _ _
  have lb : (alloc2 n1 n2 h).2.live h.next = true := (ao.1 _).2 (.inr ob)
  refine ⟨h.next, ⟨(alloc2 n1 n2 h).2.next, wr (alloc2 n1 n2 h).2.live h.next false⟩, ?_, ob, lb, ?_, ?_⟩
  · rw [he]; simp only [free1, free]; rw [if_pos lb]
  · intro c
    by_cases hcb : c = h.next
    · subst hcb; simp [wr]
    · simp [wr, hcb]
  · obtain ⟨r1, r2, r3, r4⟩ := hr 0 hn1
    have hne : row 0 ≠ h.next := fun h' => r4 (by rw [h'])
    refine ⟨row 0, ?_, r3, by simp [wr, hne, r2]⟩
    rw [he]
    exact .entry _ _ _ 0 _ (by omega) (by rw [r1]; exact .leaf _)

namespace WitnessMem

/-- A heap with two blocks, of which one was released. -/
def heap : Heap := ⟨2, fun b => decide (b = 1)⟩

theorem heap_fresh : Fresh heap := by
  intro b hb
  have : b ≠ 1 := by show b ≠ 1; change 2 ≤ b at hb; omega
  simp [heap, this]

/-- The flat release of the same matrix leaves three rows behind. -/
example : (match free1 (alloc2 3 5 heap).1 (alloc2 3 5 heap).2 with
     | .ok h => (List.range 6).map h.live
     | _ => []) = [false, true, false, true, true, true] := by decide +kernel

/-- A matrix of three rows takes four blocks, and they are gone after its release. -/
example : (alloc2 3 5 heap).2.next = 6 ∧
    (match free2 3 (alloc2 3 5 heap).1 (alloc2 3 5 heap).2 with
     | .ok h => (List.range 6).map h.live
     | _ => []) = [false, true, false, false, false, false] := by decide +kernel

/-- Released with one row less than it was allocated with, a matrix keeps a row. -/
example : (match free2 2 (alloc2 3 5 heap).1 (alloc2 3 5 heap).2 with
     | .ok h => (List.range 6).map h.live
     | _ => []) = [false, true, false, false, false, true] := by decide +kernel

/-- Releasing a matrix twice is undefined. -/
example : (match free2 3 (alloc2 3 5 heap).1 (alloc2 3 5 heap).2 with
     | .ok h => (match free2 3 (alloc2 3 5 heap).1 h with | .ub => true | _ => false)
     | _ => false) = true := by decide +kernel

end WitnessMem

/-! ## C158 -/

theorem setup_sublist (m : Mode) (p : Has) :
    (setupAllocs m p).Sublist (setupAllocs m ⟨true, true, true, true, true⟩) := by
  have s : ∀ (b : Bool) (l : List Name), (if b then l else []).Sublist l := by
    intro b l; cases b <;> simp
  unfold setupAllocs materialAllocs
  refine List.Sublist.cons_cons _ ?_
  refine List.Sublist.append ?_ (List.Sublist.refl _)
  refine List.Sublist.append ?_ (List.Sublist.refl _)
  refine List.Sublist.append (List.Sublist.refl _) ?_
  refine List.Sublist.append ?_ (List.Sublist.refl _)
  refine List.Sublist.append ?_ (s p.weight _)
  refine List.Sublist.append ?_ (s p.diff _)
  refine List.Sublist.append ?_ (s p.dens _)
  refine List.Sublist.append ?_ (s p.heat _)
  exact List.Sublist.append (List.Sublist.refl _) (s p.cond _)

theorem setup_facts_all (m : Mode) :
    (setupAllocs m ⟨true, true, true, true, true⟩).Nodup ∧
    (∀ x, x ∈ setupAllocs m ⟨true, true, true, true, true⟩ → x ∈ destroyFrees ∨ x ∈ unreleased) := by
  cases m <;> decide +kernel

theorem setup_nodup (m : Mode) (p : Has) : (setupAllocs m p).Nodup :=
  (setup_facts_all m).1.sublist (setup_sublist m p)

theorem destroy_nodup : destroyFrees.Nodup := by decide +kernel

/-- The size with which an array would be released completely. -/
def full : Shape → FShape
  | .d1 _ => .d1
  | .d2 n1 _ => .d2 n1
  | .d3 n1 n2 _ => .d3 n1 n2
  | .d4 n1 n2 n3 _ => .d4 n1 n2 n3

theorem fits_full (s : Shape) : Fits s (full s) := by cases s <;> simp [Fits, full]

theorem fshape_full (d : Dims) (x : Name) (hx : x ∈ destroyFrees) : full (shape d x) = fshape d x := by
  have hx' : x ≠ .f_dist_up_dn ∧ x ≠ .f_unit_vec_up_dn := by
    constructor <;> (rintro rfl; revert hx; decide +kernel)
  cases x
  case f_dist_up_dn => exact absurd rfl hx'.1
  case f_unit_vec_up_dn => exact absurd rfl hx'.2
  all_goals rfl

theorem setup_split (m : Mode) (p : Has) :
    ∀ x, x ∈ setupAllocs m p → x ∈ destroyFrees ∨ x ∈ unreleased :=
  fun x hx => (setup_facts_all m).2 x ((setup_sublist m p).subset hx)

theorem unreleased_not : ∀ x, x ∈ unreleased → x ∉ destroyFrees := by decide +kernel

theorem closure_mem (m : Mode) (p : Has) : Name.closure ∈ setupAllocs m p := by
  have : Name.closure ∈ meshAllocs := by decide +kernel
  simp [setupAllocs, this]

theorem fshape_plain (d : Dims) (x : Name) (hg : ¬ guarded x = true) (hc : x ≠ .closure) :
    fshape d x = .d1 := by
  have h1 : x ≠ .Trans ∧ x ≠ .Temp_Trans ∧ x ≠ .Psi_Trans ∧ x ≠ .subc_Gmatrix ∧
      x ≠ .Temp_subc_Gmatrix ∧ x ≠ .Psi_subc_Gmatrix := by
    refine ⟨?_, ?_, ?_, ?_, ?_, ?_⟩ <;> (rintro rfl; exact hg (by decide +kernel))
  obtain ⟨h1, h2, h3, h4, h5, h6⟩ := h1
  unfold fshape
  split <;> simp_all

/-- What MPFA-O holds after its set-up. -/
def held (d : Dims) (m : Mode) (p : Has) (h : Heap) : Name → Obj :=
  (allocAll (shape d) (setupAllocs m p) (cleared, h)).1

theorem lifetime_eq (d : Dims) (m : Mode) (p : Has) (h : Heap) :
    lifetime d m p h = freeAll (fshape d) guarded destroyFrees (held d m p h)
      (allocAll (shape d) (setupAllocs m p) (cleared, h)).2 := by
  unfold lifetime held
  generalize allocAll (shape d) (setupAllocs m p) (cleared, h) = s
  rfl

/-- Each mode has the arrays of its own unknowns and of no others: a second transmissibility for heat in
the TH mode and for salt in the salinity mode, boundary salinities in the salinity mode only, boundary
temperatures and energy sources except in the Richards mode; velocities are there in every mode. -/
theorem C158_arrays_of_a_mode (m : Mode) (p : Has) :
    (.Temp_Trans ∈ setupAllocs m p ↔ m = .th) ∧ (.Psi_Trans ∈ setupAllocs m p ↔ m = .salinity) ∧
    (.Psi_bnd ∈ setupAllocs m p ↔ m = .salinity) ∧ (.T_bnd ∈ setupAllocs m p ↔ m ≠ .richards) ∧
    (.energy_source_sink ∈ setupAllocs m p ↔ m ≠ .richards) ∧
    (.vel ∈ setupAllocs m p ∧ .vel_count ∈ setupAllocs m p) := by
  obtain ⟨⟩ := p
  cases m <;> simp [setupAllocs, meshAllocs, materialAllocs, matrixAllocs, valueAllocs]

/-- For every mesh, mode and choice of material properties, creating, setting up and destroying MPFA-O
ends without undefined behaviour - nothing is released twice and no released block is read - and
everything is released but the arrays in `unreleased`.
Missing from the full property: those arrays are not released. -/
theorem C158_destroy_releases_all_but_some_partial (d : Dims) (m : Mode) (p : Has) (h : Heap)
    (hf : Fresh h) :
    ∃ h', lifetime d m p h = .ok h' ∧ Fresh h' ∧
      ∀ b, h'.live b = true ↔
        h.live b = true ∨ ∃ x, x ∈ setupAllocs m p ∧ x ∈ unreleased ∧ Owns (held d m p h x) b := by
  have I := after_allocAll (shape := shape d) (fun x => full (shape d x)) (setupAllocs m p)
    (setup_nodup m p) (fun x _ => fits_full _) h hf
  rw [lifetime_eq]
  rw [← held] at I
  generalize held d m p h = c at I ⊢
  generalize (allocAll (shape d) (setupAllocs m p) (cleared, h)).2 = g at I ⊢
  have nin : ∀ x, x ∉ setupAllocs m p → ∀ b, ¬ Owns (c x) b := by
    intro x hx b; rw [I.out x hx]; exact not_owns_none b
  obtain ⟨h', e', n', z, k⟩ := freeAll_spec (fshape := fshape d) guarded destroyFrees destroy_nodup c g
    (fun x _ => I.null x)
    (by
      intro x hx
      by_cases hs : x ∈ setupAllocs m p
      · left
        have := I.free x hs
        rwa [fshape_full d x hx] at this
      · rw [I.out x hs]
        by_cases hg : guarded x = true
        · right; exact ⟨hg, rfl⟩
        · left
          have h1 : fshape d x = .d1 := by
            by_cases hxc : x = .closure
            · subst hxc
              exact absurd (closure_mem m p) hs
            · exact fshape_plain d x hg hxc
          rw [h1]
          intro g' _
          exact ⟨g', rfl, rfl, fun b hb => absurd hb (not_owns_none b), fun _ _ => rfl⟩)
    (by
      intro x y b hx hy ho1 ho2
      by_cases h1 : x ∈ setupAllocs m p
      · by_cases h2 : y ∈ setupAllocs m p
        · exact I.dis x y b h1 h2 ho1 ho2
        · exact absurd ho2 (nin y h2 b)
      · exact absurd ho1 (nin x h1 b))
    (by
      intro x b hx ho
      by_cases h1 : x ∈ setupAllocs m p
      · have := I.rng x b h1 ho
        exact I.new b this.1 this.2
      · exact absurd ho (nin x h1 b))
  refine ⟨h', e', ?_, ?_⟩
  · intro b hb
    rw [n'] at hb
    by_cases ho : ∃ x, x ∈ destroyFrees ∧ Owns (c x) b
    · exact z b ho
    · rw [k b ho]; exact I.fresh b hb
  · intro b
    constructor
    · intro hb
      by_cases ho : ∃ x, x ∈ destroyFrees ∧ Owns (c x) b
      · rw [z b ho] at hb; cases hb
      · rw [k b ho] at hb
        by_cases h1 : b < h.next
        · left; rw [← I.old b h1]; exact hb
        · right
          have h2 : b < g.next := by
            by_contra h2
            rw [I.fresh b (by omega)] at hb; cases hb
          obtain ⟨x, hx, hxo⟩ := I.cov b (by omega) h2
          exact ⟨x, hx, (setup_split m p x hx).resolve_left (fun hd => ho ⟨x, hd, hxo⟩), hxo⟩
    · rintro (hb | ⟨x, hx, hu, ho⟩)
      · have h1 : b < h.next := by
          by_contra h1
          rw [hf b (by omega)] at hb; cases hb
        rw [k b (by
          rintro ⟨x, hx, ho⟩
          by_cases hs : x ∈ setupAllocs m p
          · have := I.rng x b hs ho; omega
          · exact nin x hs b ho), I.old b h1]
        exact hb
      · have hr := I.rng x b hx ho
        rw [k b (by
          rintro ⟨y, hy, ho'⟩
          by_cases hs : y ∈ setupAllocs m p
          · have := I.dis x y b hx hs ho ho'
            subst this; exact unreleased_not x hu hy
          · exact nin y hs b ho')]
        exact I.new b hr.1 hr.2

theorem K_mem (m : Mode) (p : Has) : Name.K ∈ setupAllocs m p := by
  simp [setupAllocs, materialAllocs]

theorem owns_of_pos (A : List Name) (hnd : A.Nodup) (d : Dims) (h : Heap) (hf : Fresh h) (x : Name)
    (hx : x ∈ A) (n : Nat) (hs : shape d x = .d1 n) (hn : 0 < n) :
    ∃ b, h.next ≤ b ∧ Owns ((allocAll (shape d) A (cleared, h)).1 x) b := by
  induction A using List.reverseRecOn with
  | nil => simp at hx
  | append_singleton A y ih =>
    rw [allocAll_snoc]
    have hnd' : A.Nodup := (List.nodup_append.1 hnd).1
    have hy : y ∉ A := by
      intro hy
      exact (List.nodup_append.1 hnd).2.2 y hy y (by simp) rfl
    have I := after_allocAll (shape := shape d) (fun x => full (shape d x)) A hnd'
      (fun x _ => fits_full _) h hf
    rw [List.mem_append, List.mem_singleton] at hx
    rcases hx with hx | rfl
    · obtain ⟨b, hb, ho⟩ := ih hnd' hx
      refine ⟨b, hb, ?_⟩
      dsimp only
      rw [Function.update_of_ne (by rintro rfl; exact hy hx)]; exact ho
    · refine ⟨_, I.mono, ?_⟩
      dsimp only
      rw [Function.update_self, hs]
      simp only [Shape.alloc, alloc1, alloc_pos (by omega : n ≠ 0)]
      exact .leaf _

theorem count_lt {h h' : Heap} (hf' : Fresh h') (hsub : ∀ b, h.live b = true → h'.live b = true)
    (b : Nat) (hb : h.live b = false) (hb' : h'.live b = true) : count h < count h' := by
  unfold count
  apply Finset.card_lt_card
  rw [Finset.ssubset_iff_of_subset]
  · refine ⟨b, ?_, ?_⟩
    · simp only [Finset.mem_filter, Finset.mem_range]
      refine ⟨?_, hb'⟩
      by_contra hc
      rw [hf' b (by omega)] at hb'; cases hb'
    · simp [hb]
  · intro x hx
    simp only [Finset.mem_filter, Finset.mem_range] at hx ⊢
    refine ⟨?_, hsub x hx.2⟩
    by_contra hc
    have := hsub x hx.2
    rw [hf' x (by omega)] at this; cases this

/-- Every time MPFA-O is set up on a mesh with a cell and destroyed, more memory is in use than
before. -/
theorem C158_every_lifetime_loses_memory (d : Dims) (hc : 0 < d.nc) (m : Mode) (p : Has) (h : Heap)
    (hf : Fresh h) : ∃ h', lifetime d m p h = .ok h' ∧ count h < count h' := by
  obtain ⟨h', e, f', iff⟩ := C158_destroy_releases_all_but_some_partial d m p h hf
  obtain ⟨b, hb, ho⟩ := owns_of_pos (setupAllocs m p) (setup_nodup m p) d h hf .K (K_mem m p) (9 * d.nc)
    rfl (by omega)
  refine ⟨h', e, count_lt f' (fun b hb => (iff b).2 (.inl hb)) b (hf b hb) ?_⟩
  exact (iff b).2 (.inr ⟨.K, K_mem m p, by decide, ho⟩)

/-- Destroying MPFA-O does not release what its set-up allocated. -/
theorem C158_violated : ¬ ∀ (d : Dims) (m : Mode) (p : Has), ReleasesAll (lifetime d m p) := by
  intro hall
  let d : Dims := ⟨1, 6, 12, 8, 6, 27, 8, 12, 6, 6, 8, 3, 8, 3, 3, 3, 1, 1, 2, 4, 4⟩
  obtain ⟨h1, e1, s1, f1⟩ := hall d .richards ⟨false, false, false, false, false⟩ WitnessMem.heap
    WitnessMem.heap_fresh
  obtain ⟨h2, e2, c2⟩ := C158_every_lifetime_loses_memory d (by decide) .richards
    ⟨false, false, false, false, false⟩ WitnessMem.heap WitnessMem.heap_fresh
  rw [e1] at e2
  obtain rfl : h1 = h2 := by injection e2
  have h3 : count h1 ≤ count WitnessMem.heap := by
    unfold count
    apply Finset.card_le_card
    intro x hx
    simp only [Finset.mem_filter, Finset.mem_range] at hx ⊢
    have := s1 x
    rw [hx.2] at this
    refine ⟨?_, this.symm⟩
    by_contra hc
    rw [WitnessMem.heap_fresh x (by omega)] at this; cases this
  omega

/-! ## C159 -/

theorem local_nodup : localAllocs.Nodup ∧ localFrees.Nodup := by decide +kernel

theorem local_same : ∀ x, x ∈ localAllocs ∧ x ∈ localFrees := by
  intro x; cases x <;> decide +kernel

theorem lfits (l : LDims) (x : LName) : Fits (lshape l x) (lfshape l x) := by
  cases x <;> simp [Fits, lshape, lfshape]

theorem localProblem_eq (l : LDims) (h : Heap) : localProblem l h =
    (free2 3 (alloc2 3 3 (allocAll (lshape l) localAllocs (cleared, h)).2).1
      (alloc2 3 3 (allocAll (lshape l) localAllocs (cleared, h)).2).2).bind
        (freeAll (lfshape l) (fun _ => false) localFrees
          (allocAll (lshape l) localAllocs (cleared, h)).1) := rfl

/-- The local problem of a vertex releases everything it allocates, whatever the numbers of its cells,
internal and boundary fluxes, also where some of them are zero. -/
theorem C159_local_problems_release_all_partial (l : LDims) : ReleasesAll (localProblem l) := by
  intro h hf
  have I := after_allocAll (shape := lshape l) (lfshape l) localAllocs local_nodup.1
    (fun x _ => lfits l x) h hf
  rw [localProblem_eq]
  generalize (allocAll (lshape l) localAllocs (cleared, h)).1 = c at I ⊢
  generalize (allocAll (lshape l) localAllocs (cleared, h)).2 = g at I ⊢
  have a := pair_shape (.d2 3 3) (.d2 3) rfl g I.fresh
  change Alloc (alloc2 3 3) (free2 3) g at a
  have ao := allocatesOnly I.fresh a
  obtain ⟨g1, e1, n1, z1, k1⟩ := a.freeable (alloc2 3 3 g).2 (fun b ho => (ao.1 b).2 (.inr ho))
  have same : ∀ b, g1.live b = g.live b := by
    intro b
    by_cases ho : Owns (alloc2 3 3 g).1 b
    · rw [z1 b ho, ao.2 b ho]
    · rw [k1 b ho]
      rw [Bool.eq_iff_iff, ao.1 b]
      exact ⟨fun h => h.resolve_right ho, .inl⟩
  obtain ⟨h', e', n', z, k⟩ := freeAll_spec (fshape := lfshape l) (fun _ => false) localFrees
    local_nodup.2 c g1 (fun x _ => I.null x) (fun x _ => .inl (I.free x (local_same x).1))
    (fun x y b _ _ => I.dis x y b (local_same x).1 (local_same y).1)
    (by
      intro x b _ ho
      have := I.rng x b (local_same x).1 ho
      rw [same]; exact I.new b this.1 this.2)
  have hlive : ∀ b, h'.live b = h.live b := by
    intro b
    by_cases ho : ∃ x, x ∈ localFrees ∧ Owns (c x) b
    · rw [z b ho]
      obtain ⟨x, _, hxo⟩ := ho
      rw [hf b (I.rng x b (local_same x).1 hxo).1]
    · rw [k b ho, same]
      by_cases h1 : b < h.next
      · exact I.old b h1
      · rw [hf b (by omega)]
        by_contra hb
        have h2 : b < g.next := by
          by_contra h2
          exact hb (I.fresh b (by omega))
        obtain ⟨x, _, hxo⟩ := I.cov b (by omega) h2
        exact ho ⟨x, (local_same x).2, hxo⟩
  refine ⟨h', by rw [e1]; exact e', hlive, ?_⟩
  intro b hb
  rw [hlive b]
  apply hf
  rw [n', n1] at hb
  have := a.mono
  have := I.mono
  omega

/-- Every recovery of the velocities keeps the four blocks of a matrix. -/
theorem C159_velocity_recovery_loses_memory (h : Heap) (hf : Fresh h) (k : Nat) :
    count (recoverVelocity^[k] h) = count h + 4 * k ∧ Fresh (recoverVelocity^[k] h) := by
  induction k with
  | zero => exact ⟨rfl, hf⟩
  | succ k ih =>
    rw [Function.iterate_succ_apply']
    generalize recoverVelocity^[k] h = g at ih ⊢
    obtain ⟨hc, hg⟩ := ih
    have a := pair_shape (.d2 3 3) (.d2 3) rfl g hg
    change Alloc (alloc2 3 3) (free2 3) g at a
    refine ⟨?_, a.fresh⟩
    have nx : (recoverVelocity g).next = g.next + 4 := rfl
    have : count (recoverVelocity g) = count g + 4 := by
      unfold count
      rw [nx]
      have hs : (Finset.range (g.next + 4)).filter (fun b => (recoverVelocity g).live b = true) =
          (Finset.range g.next).filter (fun b => g.live b = true) ∪
            (Finset.Ico g.next (g.next + 4)) := by
        ext b
        simp only [Finset.mem_filter, Finset.mem_range, Finset.mem_union, Finset.mem_Ico]
        by_cases h1 : b < g.next
        · rw [show (recoverVelocity g).live b = g.live b from a.old b h1]
          constructor
          · rintro ⟨_, h3⟩; exact .inl ⟨h1, h3⟩
          · rintro (⟨_, h3⟩ | h3)
            · exact ⟨by omega, h3⟩
            · omega
        · constructor
          · rintro ⟨h3, _⟩; right; omega
          · rintro (⟨h3, _⟩ | h3)
            · omega
            · exact ⟨h3.2, a.new b h3.1 (by show b < g.next + 4; omega)⟩
      rw [hs, Finset.card_union_of_disjoint]
      · simp
      · rw [Finset.disjoint_left]
        intro b hb hb'
        simp only [Finset.mem_filter, Finset.mem_range, Finset.mem_Ico] at hb hb'
        omega
    omega

/-- Not every computation that is repeated in a run releases what it allocates. -/
theorem C159_violated : ¬ ReleasesAll (fun h => .ok (recoverVelocity h)) := by
  intro hall
  obtain ⟨h', e, s, _⟩ := hall WitnessMem.heap WitnessMem.heap_fresh
  obtain rfl : recoverVelocity WitnessMem.heap = h' := by injection e
  have := s 2
  revert this
  decide +kernel

end TDy.Mem.Props
