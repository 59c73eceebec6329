import Verif.Spec.Output
import Mathlib.Data.Real.Basic
import Mathlib.Tactic.Ring
import Mathlib.Tactic.IntervalCases
import Mathlib.Data.List.Basic

/-!
# C167: Output files are complete and can be read
# C168: Diagnostic fields are delivered in natural order
# C169: Fields in output files belong to their cells
-/

namespace TDy.Output.Props

open TDy TDy.Output TDy.Output.Spec

/-! ### Natural order -/

/-- A loop that scatters blocks. -/
theorem blocks {α : Type} (n k : Nat) (nat : Nat → Nat)
    (inj : ∀ c < n, ∀ d < n, nat c = nat d → c = d) (w : Nat → Nat → α) (a : Nat → α)
    (c : Nat) (hc : c < n) (j : Nat) (hj : j < k) :
    forN n (fun c a => forN k (fun j a => wr a (k*nat c + j) (w c j)) a) a (k*nat c + j) = w c j := by
  induction n with
  | zero => omega
  | succ n ih =>
    rw [forN]
    by_cases h : c = n
    · subst h
      exact forN_scatter k (fun j => k*nat c + j) (w c) _ (fun i j _ _ e => by omega)
        j hj
    · have hne : nat c ≠ nat n := fun e => h (inj c hc n (by omega) e)
      rw [forN_scatter_other k (fun j => k*nat n + j) (w n) _ (k*nat c + j)]
      · exact ih (fun c hc d hd => inj c (by omega) d (by omega)) (by omega)
      · intro i hi e

        rcases Nat.lt_or_gt_of_ne hne with h1 | h1
        · have : k*(nat c + 1) ≤ k*nat n := Nat.mul_le_mul_left k h1
          rw [Nat.mul_add, Nat.mul_one] at this
          omega
        · have : k*(nat n + 1) ≤ k*nat c := Nat.mul_le_mul_left k h1
          rw [Nat.mul_add, Nat.mul_one] at this
          omega

/-- Conversion of vectors of the right length. -/
theorem toNatural_ok {α : Type} (L : Layout) (hL : Natural L) (v out : Vec α)
    (hv : v.len = L.n*L.ndof) (ho : out.len = L.n*L.ndof) :
    ∃ r, globalToNatural L v out = .ok r ∧ r.len = L.n*L.ndof ∧
      ∀ c < L.n, ∀ j < L.ndof, r.val (L.ndof*L.nat c + j) = v.val (L.ndof*c + j) := by
  unfold globalToNatural
  by_cases h1 : L.ranks = 1
  · rw [if_pos h1, if_pos (by rw [hv, ho])]
    refine ⟨_, rfl, ho, fun c hc j hj => ?_⟩
    have hlt : L.ndof*c + j < out.len := by
      have : L.ndof*(c + 1) ≤ L.ndof*L.n := Nat.mul_le_mul_left _ hc
      rw [Nat.mul_add, Nat.mul_one] at this
      rw [ho, Nat.mul_comm L.n]
      omega
    dsimp only
    rw [hL.one h1 c hc, if_pos hlt]
  · rw [if_neg h1, if_neg (by omega)]
    refine ⟨_, rfl, ho, fun c hc j hj => ?_⟩
    exact blocks L.n L.ndof L.nat hL.inj (fun c k => v.val (L.ndof*c + k)) out.val c hc j hj

theorem stride_apply {α : Type} (n : Nat) (diag : Nat → α) (i : Nat) (out : Nat → α) (c : Nat)
    (hc : c < n) : strideGather n diag i out c = diag (2*c + i) := by
  unfold strideGather
  rw [forN_fill n (fun c => diag (2*c + i)) out c, if_pos hc]

/-- C168.  With one unknown per cell, on any number of ranks, saturation and mass of every cell are
delivered at the natural number of the cell. -/
theorem C168_one_unknown_partial {α : Type} (L : Layout) (hL : Natural L) (h1 : L.ndof = 1)
    (diag : Nat → α) (index : Nat) (tmp sat : Nat → α) :
    ∃ r, getDiagnostic L diag index tmp sat = .ok r ∧
      InNaturalOrder L 1 (fun c _ => diag (2*c + index)) r := by
  obtain ⟨r, h2, h3, h4⟩ := toNatural_ok L hL ⟨L.n, strideGather L.n diag index tmp⟩ ⟨L.n, sat⟩
    (by simp [h1]) (by simp [h1])
  rw [h1] at h3 h4
  refine ⟨r, h2, h3, fun c hc j hj => ?_⟩
  rw [h4 c hc j hj]
  obtain rfl : j = 0 := by omega
  simp only [Nat.one_mul, Nat.add_zero]
  exact stride_apply L.n diag index tmp c hc

/-- C168.  On one rank any number of unknowns will do. -/
theorem C168_one_rank_partial {α : Type} (L : Layout) (h1 : L.ranks = 1) (diag : Nat → α)
    (index : Nat) (tmp sat : Nat → α) :
    ∃ r, getDiagnostic L diag index tmp sat = .ok r ∧ r.len = L.n ∧
      ∀ c < L.n, r.val c = diag (2*c + index) := by
  unfold getDiagnostic globalToNatural
  rw [if_pos h1, if_pos rfl]
  refine ⟨_, rfl, rfl, fun c hc => ?_⟩
  dsimp only
  rw [if_pos hc]
  exact stride_apply L.n diag index tmp c hc

/-- C168.  With more unknowns per cell on several ranks the conversion runs past the end of the vectors
of diagnostic fields. -/
theorem C168_more_unknowns_undefined {α : Type} (L : Layout) (hr : L.ranks ≠ 1) (hn : 0 < L.n)
    (hd : 2 ≤ L.ndof) (diag : Nat → α) (index : Nat) (tmp sat : Nat → α) :
    getDiagnostic L diag index tmp sat = .ub := by
  have : L.n*2 ≤ L.n*L.ndof := Nat.mul_le_mul_left _ hd
  unfold getDiagnostic globalToNatural
  rw [if_neg hr, if_pos (Or.inl (by dsimp only; omega))]

/-- Three cells on two ranks, numbered round. -/
def ring3 (ndof : Nat) : Layout := ⟨2, 3, ndof, fun c => if c = 2 then 0 else c + 1⟩

theorem ring3_natural (ndof : Nat) : Natural (ring3 ndof) where
  lt := by intro c hc; have hc' : c < 3 := hc; simp only [ring3]; split <;> omega
  inj := by
    intro c hc d hd e
    have hc' : c < 3 := hc
    have hd' : d < 3 := hd
    simp only [ring3] at e
    split at e <;> split at e <;> omega
  one := fun h => absurd (show (2 : Nat) = 1 from h) (by decide)

/-- The hypotheses are met, with a numbering that is not the identity. -/
example (diag : Nat → ℝ) : ∃ r, getDiagnostic (ring3 1) diag 0 (fun _ => 0) (fun _ => 0) = .ok r ∧
    InNaturalOrder (ring3 1) 1 (fun c _ => diag (2*c)) r :=
  C168_one_unknown_partial (ring3 1) (ring3_natural 1) rfl diag 0 _ _

/-- C168.  The full property is false: the thermal mode (two unknowns per cell) on two ranks. -/
theorem C168_violated : ∃ L : Layout, Natural L ∧ ∀ diag : Nat → ℝ,
    getDiagnostic L diag 0 (fun _ => 0) (fun _ => 0) = .ub :=
  ⟨ring3 2, ring3_natural 2, fun diag =>
    C168_more_unknowns_undefined (ring3 2) (by decide) (by decide) (by decide) diag 0 _ _⟩

/-! ### Fields in output files -/

/-- C169.  The pressures in an HDF5 file are those of their cells, on any number of ranks; and where
the saturation of a cell goes: to the natural number of the natural number. -/
theorem C169_hdf5_pressure_partial {α : Type} (L : Layout) (hL : Natural L) (h1 : L.ndof = 1)
    (p diag z : Nat → α) :
    ∃ f, hdf5Fields L p diag z = .ok f ∧ InNaturalOrder L 1 (fun c _ => p c) f.pressure ∧
      f.saturation.len = L.n ∧ ∀ c < L.n, f.saturation.val (L.nat (L.nat c)) = diag (2*c) := by
  obtain ⟨s, hs, hs1, hs2⟩ := C168_one_unknown_partial L hL h1 diag 0 z z
  obtain ⟨pn, hp, hp1, hp2⟩ := toNatural_ok L hL ⟨L.n*L.ndof, p⟩ ⟨L.n*L.ndof, z⟩ rfl rfl
  obtain ⟨sn, hn, hn1, hn2⟩ := toNatural_ok L hL s ⟨L.n*L.ndof, z⟩ (by rw [hs1, h1]) rfl
  refine ⟨⟨pn, sn⟩, ?_, ⟨by rw [hp1, h1], fun c hc j hj => ?_⟩, by rw [hn1, h1, Nat.mul_one],
    fun c hc => ?_⟩
  · unfold hdf5Fields
    rw [hs]; dsimp only; rw [hp]; dsimp only; rw [hn]
  · have := hp2 c hc j (by omega)
    rw [h1] at this
    rw [this]
    obtain rfl : j = 0 := by omega
    simp
  · have a := hn2 (L.nat c) (hL.lt c hc) 0 (by omega)
    have b := hs2 c hc 0 (by omega)
    rw [h1] at a
    simp only [Nat.one_mul, Nat.add_zero] at a b
    rw [a, b]

/-- C169.  The saturations in an HDF5 file are those of their cells, for all saturations, exactly if
the natural numbering is the global numbering. -/
theorem C169_hdf5_saturation_iff {α : Type} [Nontrivial α] (L : Layout) (hL : Natural L)
    (h1 : L.ndof = 1) (p z : Nat → α) :
    (∀ diag, ∃ f, hdf5Fields L p diag z = .ok f ∧
        InNaturalOrder L 1 (fun c _ => diag (2*c)) f.saturation) ↔
      ∀ c < L.n, L.nat c = c := by
  constructor
  · intro h c hc
    obtain ⟨x, y, hxy⟩ := exists_pair_ne α
    obtain ⟨f, hf, -, hf2⟩ := h (fun i => if i = 2*c then x else y)
    obtain ⟨f', hf', -, -, hs⟩ := C169_hdf5_pressure_partial L hL h1 p
      (fun i => if i = 2*c then x else y) z
    rw [hf] at hf'
    injection hf' with e
    subst e
    have a := hs c hc
    rw [if_pos rfl] at a
    have b := hf2 (L.nat c) (hL.lt c hc) 0 (by omega)
    simp only [Nat.one_mul, Nat.add_zero] at b
    rw [b] at a
    by_contra hne
    rw [if_neg (by omega)] at a
    exact hxy a.symm
  · intro h diag
    obtain ⟨f, hf, -, hl, hs⟩ := C169_hdf5_pressure_partial L hL h1 p diag z
    refine ⟨f, hf, by rw [hl, Nat.mul_one], fun c hc j hj => ?_⟩
    have := hs c hc
    rw [h c hc, h c hc] at this
    obtain rfl : j = 0 := by omega
    simp only [Nat.one_mul, Nat.add_zero, h c hc]
    exact this

/-- C169.  With text files, on any number of ranks, pressures are in global order and saturations in
natural order. -/
theorem C169_text_mixed_orders {α : Type} (L : Layout) (hL : Natural L) (h1 : L.ndof = 1)
    (p diag z : Nat → α) :
    ∃ f, asciiFields L p diag z = .ok f ∧ f.pressure.val = p ∧
      InNaturalOrder L 1 (fun c _ => diag (2*c)) f.saturation := by
  obtain ⟨s, hs, hs1⟩ := C168_one_unknown_partial L hL h1 diag 0 z z
  exact ⟨⟨⟨L.n*L.ndof, p⟩, s⟩, by unfold asciiFields; rw [hs], rfl, hs1⟩

/-- C169.  In the thermal mode an HDF5 output is refused on one rank, and undefined on several. -/
theorem C169_two_unknowns {α : Type} (L : Layout) (hL : Natural L) (hn : 0 < L.n) (hd : L.ndof = 2)
    (p diag z : Nat → α) :
    (L.ranks = 1 → ∃ f, hdf5Fields L p diag z = .err f) ∧
    (L.ranks ≠ 1 → hdf5Fields L p diag z = .ub) := by
  constructor
  · intro h1
    obtain ⟨s, hs, hs1, -⟩ := C168_one_rank_partial L h1 diag 0 z z
    obtain ⟨pn, hp, -, -⟩ := toNatural_ok L hL ⟨L.n*L.ndof, p⟩ ⟨L.n*L.ndof, z⟩ rfl rfl
    refine ⟨⟨pn, s⟩, ?_⟩
    have hbad : globalToNatural L s ⟨L.n*L.ndof, z⟩ = .err ⟨L.n*L.ndof, z⟩ := by
      unfold globalToNatural
      rw [if_pos h1, if_neg (by dsimp only; rw [hs1, hd]; omega)]
    unfold hdf5Fields
    rw [hs]; dsimp only; rw [hp]; dsimp only; rw [hbad]
    rfl
  · intro h1
    unfold hdf5Fields
    rw [C168_more_unknowns_undefined L h1 hn (by omega)]
    rfl

/-- The hypotheses are met. -/
example (p diag : Nat → ℝ) : ∃ f, hdf5Fields (ring3 1) p diag (fun _ => 0) = .ok f ∧
    InNaturalOrder (ring3 1) 1 (fun c _ => p c) f.pressure := by
  obtain ⟨f, h1, h2, -⟩ := C169_hdf5_pressure_partial (ring3 1) (ring3_natural 1) rfl p diag
    (fun _ => 0)
  exact ⟨f, h1, h2⟩

/-- C169.  The full property is false: on two ranks, some saturations go to wrong cells. -/
theorem C169_violated : ∃ L : Layout, Natural L ∧ L.ndof = 1 ∧ ∀ p : Nat → ℝ,
    ¬ ∀ diag, ∃ f, hdf5Fields L p diag (fun _ => 0) = .ok f ∧
      InNaturalOrder L 1 (fun c _ => diag (2*c)) f.saturation := by
  refine ⟨ring3 1, ring3_natural 1, rfl, fun p h => ?_⟩
  have := (C169_hdf5_saturation_iff (ring3 1) (ring3_natural 1) rfl p (fun _ => 0)).1 h 0 (by decide)
  exact absurd this (by decide)

/-! ### Files -/

/-- The attributes of some outputs. -/
def attributes {α : Type} (ws : List (String × Fields α)) : List (String × String) :=
  ws.flatMap fun w => [(w.1, "LiquidPressure"), (w.1, "LiquidSaturation")]

theorem writeAll_hdf5 {α : Type} (ws : List (String × Fields α)) (d : Disk α)
    (h : d.format = .hdf5) :
    ∃ d', writeAll d ws = .ok d' ∧ d'.format = .hdf5 ∧
      d'.xmf = d.xmf ++ (attributes ws).map (fun a => .attribute a.1 a.2) ∧
      (∀ label name, (∀ w ∈ ws, w.1 ≠ label) →
        d'.h5.lookup (label, name) = d.h5.lookup (label, name)) ∧
      (∀ k v, d.h5.lookup k = some v → ∃ v', d'.h5.lookup k = some v') ∧
      (∀ w ∈ ws, ∃ v v', d'.h5.lookup (w.1, pressureName) = some v ∧
        d'.h5.lookup (w.1, saturationName) = some v') ∧
      ((ws.map Prod.fst).Nodup → ∀ w ∈ ws,
        d'.h5.lookup (w.1, pressureName) = some w.2.pressure ∧
        d'.h5.lookup (w.1, saturationName) = some w.2.saturation) := by
  induction ws generalizing d with
  | nil =>
    exact ⟨d, rfl, h, by simp [attributes], fun _ _ _ => rfl, fun k v h => ⟨v, h⟩,
      fun w hw => (by cases hw), fun _ w hw => (by cases hw)⟩
  | cons w ws ih =>
    obtain ⟨label, f⟩ := w
    let d1 := writeHdf5Var (writeHdf5Var d label pressureName f.pressure) label saturationName
      f.saturation
    have hstep : writeVec d label f = .ok d1 := by unfold writeVec; rw [h]
    obtain ⟨d', e1, e2, e3, e4, e5, e6, e7⟩ := ih d1 h
    have hns : ((label, pressureName) == (label, saturationName)) = false := by
      rw [beq_eq_false_iff_ne]; intro e; injection e with _ e; exact absurd e (by decide)
    have hp : d1.h5.lookup (label, pressureName) = some f.pressure := by
      show List.lookup _ (((label, saturationName), f.saturation) ::
        ((label, pressureName), f.pressure) :: d.h5) = _
      rw [List.lookup_cons, hns, List.lookup_cons_self]
    have hs : d1.h5.lookup (label, saturationName) = some f.saturation := by
      show List.lookup _ (((label, saturationName), f.saturation) ::
        ((label, pressureName), f.pressure) :: d.h5) = _
      rw [List.lookup_cons_self]
    have hother : ∀ l n, l ≠ label → d1.h5.lookup (l, n) = d.h5.lookup (l, n) := by
      intro l n hl
      have h1 : ∀ m : String, ((l, n) == (label, m)) = false := by
        intro m; rw [beq_eq_false_iff_ne]; intro e; injection e with e _; exact hl e
      show List.lookup _ (((label, saturationName), f.saturation) ::
        ((label, pressureName), f.pressure) :: d.h5) = _
      rw [List.lookup_cons, h1, List.lookup_cons, h1]
    refine ⟨d', ?_, e2, ?_, ?_, ?_, ?_, ?_⟩
    · show Res.bind (writeVec d label f) _ = _
      rw [hstep]
      exact e1
    · rw [e3]
      show (d.xmf ++ [Item.attribute label pressureName]) ++
        [Item.attribute label saturationName] ++ _ = _
      simp [attributes, pressureName, saturationName]
    · intro l n hl
      rw [e4 l n (fun w hw => hl w (List.mem_cons_of_mem _ hw))]
      exact hother l n (fun e => hl (label, f) List.mem_cons_self e.symm)
    · intro k v hk
      obtain ⟨l, n⟩ := k
      by_cases hl : l = label
      · subst hl
        by_cases hn : n = saturationName
        · subst hn; exact e5 _ _ hs
        · have : ((l, n) == (l, saturationName)) = false := by
            rw [beq_eq_false_iff_ne]; intro e; injection e with _ e; exact hn e
          by_cases hn' : n = pressureName
          · subst hn'; exact e5 _ _ hp
          · have h2 : ((l, n) == (l, pressureName)) = false := by
              rw [beq_eq_false_iff_ne]; intro e; injection e with _ e; exact hn' e
            refine e5 (l, n) v ?_
            show List.lookup _ (((l, saturationName), f.saturation) ::
              ((l, pressureName), f.pressure) :: d.h5) = _
            rw [List.lookup_cons, this, List.lookup_cons, h2]
            exact hk
      · exact e5 (l, n) v (by rw [hother l n hl]; exact hk)
    · intro w hw
      rcases List.mem_cons.1 hw with hw | hw
      · subst hw
        obtain ⟨v, hv⟩ := e5 _ _ hp
        obtain ⟨v', hv'⟩ := e5 _ _ hs
        exact ⟨v, v', hv, hv'⟩
      · exact e6 w hw
    · intro hnd w hw
      rw [List.map_cons, List.nodup_cons] at hnd
      rcases List.mem_cons.1 hw with hw | hw
      · subst hw
        have hne : ∀ w ∈ ws, w.1 ≠ label := fun w hw e => hnd.1 (List.mem_map.2 ⟨w, hw, e⟩)
        exact ⟨by rw [e4 _ _ hne]; exact hp, by rw [e4 _ _ hne]; exact hs⟩
      · exact e7 hnd.2 w hw

/-- C167.  On one rank with HDF5 format, after any outputs, out.xmf is complete, every attribute refers
to a data set of out.h5, and outputs with different printed times are all there, and nothing of other times.  It does not matter
what was on disk before. -/
theorem C167_hdf5_complete_partial {α : Type} (d : Disk α) (ws : List (String × Fields α)) :
    ∃ d', writeAll (setMode d .hdf5) ws = .ok d' ∧ WellFormed (destroy 1 d').xmf ∧
      Refers (destroy 1 d') ∧
      (∀ label name, (∀ w ∈ ws, w.1 ≠ label) → (destroy 1 d').h5.lookup (label, name) = none) ∧
      ((ws.map Prod.fst).Nodup → ∀ w ∈ ws,
        (destroy 1 d').h5.lookup (w.1, "LiquidPressure") = some w.2.pressure ∧
        (destroy 1 d').h5.lookup (w.1, "LiquidSaturation") = some w.2.saturation) := by
  obtain ⟨d', e1, -, e3, e4, -, e6, e7⟩ := writeAll_hdf5 ws (setMode d .hdf5) rfl
  have hx : (destroy 1 d').xmf =
      Item.header :: (attributes ws).map (fun a => Item.attribute a.1 a.2) ++ [Item.footer] := by
    show d'.xmf ++ [Item.footer] = _
    rw [e3]
    rfl
  refine ⟨d', e1, ⟨attributes ws, hx⟩, ?_, fun label name h => e4 label name h, e7⟩
  intro label name hm
  rw [hx] at hm
  simp only [List.cons_append, List.mem_cons, List.mem_append, List.mem_map, reduceCtorEq, false_or,
    List.not_mem_nil, or_false] at hm
  obtain ⟨a, ha, hq⟩ := hm
  injection hq with q1 q2
  obtain ⟨w, hw, hwa⟩ := List.mem_flatMap.1 ha
  obtain ⟨v, v', hv, hv'⟩ := e6 w hw
  simp only [List.mem_cons, List.not_mem_nil, or_false] at hwa
  rcases hwa with h | h
  · subst h; subst q1; subst q2; exact ⟨v, hv⟩
  · subst h; subst q1; subst q2; exact ⟨v', hv'⟩

/-- Two outputs meet the hypotheses. -/
example (p s : Vec ℝ) : ∃ d', writeAll (setMode (⟨.null, 0, [], [], [], []⟩ : Disk ℝ) .hdf5)
      [("1.00000e+00", ⟨p, s⟩), ("2.00000e+00", ⟨s, p⟩)] = .ok d' ∧
    (destroy 1 d').h5.lookup ("1.00000e+00", pressureName) = some p := by
  obtain ⟨d', h1, -, -, -, h4⟩ := C167_hdf5_complete_partial (⟨.null, 0, [], [], [], []⟩ : Disk ℝ)
    [("1.00000e+00", ⟨p, s⟩), ("2.00000e+00", ⟨s, p⟩)]
  exact ⟨d', h1, (h4 (by simp) ("1.00000e+00", ⟨p, s⟩) (by simp)).1⟩

theorem footers {α : Type} (ranks : Nat) (d : Disk α) :
    (destroy ranks d).xmf = d.xmf ++ List.replicate ranks Item.footer := by
  show forN ranks (fun _ x => x ++ [Item.footer]) d.xmf = _
  induction ranks with
  | zero => simp [forN]
  | succ n ih => rw [forN, ih, List.append_assoc, ← List.replicate_succ']

theorem wellFormed_count (x : List Item) (h : WellFormed x) : x.count .footer = 1 := by
  obtain ⟨as, rfl⟩ := h
  rw [List.count_append, List.count_cons]
  have : (as.map fun a => Item.attribute a.1 a.2).count .footer = 0 := by
    apply List.count_eq_zero_of_not_mem
    simp
  rw [this]
  decide

/-- C167.  On several ranks out.xmf is never well-formed: each rank writes a footer. -/
theorem C167_several_ranks {α : Type} (ranks : Nat) (hr : 2 ≤ ranks) (d : Disk α) :
    ¬ WellFormed (destroy ranks d).xmf := by
  intro h
  have := wellFormed_count _ h
  rw [footers, List.count_append, List.count_replicate_self] at this
  omega

/-- C167.  A finished file is spoilt by every further TDy that is destroyed, whatever its format. -/
theorem C167_finished_file_spoilt {α : Type} (d : Disk α) (h : WellFormed d.xmf) :
    ¬ WellFormed (destroy 1 d).xmf := by
  intro h'
  have a := wellFormed_count _ h
  have b := wellFormed_count _ h'
  rw [footers, List.count_append, a] at b
  simp at b

/-- C167.  Text output is undefined for every time: the name of the saturation's file does not fit into
its buffer.  (`%11.5e` prints eleven characters or more.) -/
theorem C167_text_undefined {α : Type} (d : Disk α) (h : d.format = .ascii) (label : String)
    (hl : 11 ≤ label.length) (f : Fields α) : writeVec d label f = .ub := by
  have hlen : ∀ d' : Disk α, writeAscii d' label saturationName f.saturation = .ub := by
    intro d'
    unfold writeAscii
    rw [if_pos]
    simp only [String.length_append]
    have h1 : saturationName.length = 16 := by decide
    have h2 : "_".length = 1 := by decide
    have h3 : ".txt".length = 4 := by decide
    omega
  unfold writeVec
  rw [h]
  dsimp only
  unfold writeAscii Res.bind
  split
  · rename_i heq
    split at heq
    · cases heq
    · injection heq with heq
      subst heq
      exact hlen _
  · rename_i heq
    split at heq <;> cases heq
  · rfl

/-- C167.  With Exodus format the k-th output goes to step k, whatever the times. -/
theorem C167_exodus_steps {α : Type} (d : Disk α) (h : d.numTimes = 0)
    (ws : List (String × Fields α)) :
    ∃ d', writeAll (setMode d .exodus) ws = .ok d' ∧ ∀ k (hk : k < ws.length),
      d'.exo.lookup (k + 1, pressureName) = some (ws[k]).2.pressure ∧
      d'.exo.lookup (k + 1, saturationName) = some (ws[k]).2.saturation := by
  have key : ∀ (ws : List (String × Fields α)) (d : Disk α), d.format = .exodus →
      ∃ d', writeAll d ws = .ok d' ∧
        (∀ j ≤ d.numTimes, ∀ n, d'.exo.lookup (j, n) = d.exo.lookup (j, n)) ∧
        ∀ k (hk : k < ws.length),
          d'.exo.lookup (d.numTimes + k + 1, pressureName) = some (ws[k]).2.pressure ∧
          d'.exo.lookup (d.numTimes + k + 1, saturationName) = some (ws[k]).2.saturation := by
    intro ws
    induction ws with
    | nil => intro d _; exact ⟨d, rfl, fun _ _ _ => rfl, fun k hk => absurd hk (by simp)⟩
    | cons w ws ih =>
      obtain ⟨label, f⟩ := w
      intro d hd
      let d1 := writeExodusVar (writeExodusVar (addExodusTime d) pressureName f.pressure)
        saturationName f.saturation
      have hstep : writeVec d label f = .ok d1 := by unfold writeVec; rw [hd]
      obtain ⟨d', e1, e2, e3⟩ := ih d1 hd
      have hexo : d1.exo = ((d.numTimes + 1, saturationName), f.saturation) ::
          ((d.numTimes + 1, pressureName), f.pressure) :: d.exo := rfl
      refine ⟨d', ?_, ?_, ?_⟩
      · show Res.bind (writeVec d label f) _ = _
        rw [hstep]; exact e1
      · intro j hj n
        rw [e2 j (show j ≤ d.numTimes + 1 by omega), hexo]
        have hne : ∀ m : String, ((j, n) == (d.numTimes + 1, m)) = false := by
          intro m; rw [beq_eq_false_iff_ne]; intro e; injection e with e _; omega
        rw [List.lookup_cons, hne, List.lookup_cons, hne]
      · intro k hk
        cases k with
        | zero =>
          have a := e2 (d.numTimes + 1) (le_refl _)
          refine ⟨?_, ?_⟩
          · rw [show d.numTimes + 0 + 1 = d.numTimes + 1 from rfl, a, hexo, List.lookup_cons]
            have : ((d.numTimes + 1, pressureName) == (d.numTimes + 1, saturationName)) = false := by
              rw [beq_eq_false_iff_ne]; intro e; injection e with _ e; exact absurd e (by decide)
            rw [this, List.lookup_cons_self]
            rfl
          · rw [show d.numTimes + 0 + 1 = d.numTimes + 1 from rfl, a, hexo, List.lookup_cons_self]
            rfl
        | succ k =>
          have a := e3 k (by simpa using hk)
          have e : d1.numTimes + k + 1 = d.numTimes + (k + 1) + 1 := by
            show d.numTimes + 1 + k + 1 = _; omega
          rw [e] at a
          exact a
  obtain ⟨d', h1, -, h3⟩ := key ws (setMode d .exodus) rfl
  refine ⟨d', h1, fun k hk => ?_⟩
  have := h3 k hk
  rw [show (setMode d .exodus).numTimes = 0 from h, Nat.zero_add] at this
  exact this

/-- C167.  The full property is false: two ranks with HDF5 format, and text output at any time. -/
theorem C167_violated :
    (∀ (d : Disk ℝ) (ws : List (String × Fields ℝ)), ∃ d', writeAll (setMode d .hdf5) ws = .ok d' ∧
      ¬ WellFormed (destroy 2 d').xmf) ∧
    ∀ (d : Disk ℝ) (f : Fields ℝ), writeVec (setMode d .ascii) "1.00000e+00" f = .ub := by
  refine ⟨fun d ws => ?_, fun d f => ?_⟩
  · obtain ⟨d', h1, -⟩ := C167_hdf5_complete_partial d ws
    exact ⟨d', h1, C167_several_ranks 2 (le_refl _) d'⟩
  · exact C167_text_undefined (setMode d .ascii) rfl _ (by decide) f

end TDy.Output.Props
