import Verif.Proofs.MeshFacesMerge
import Mathlib.Data.Nat.Count
import Mathlib.Data.Nat.Nth

/-!
# Faces of an imported mesh: the final numbers
-/

namespace TDy.Custom.Proofs

open TDy.Custom TDy.Custom.Spec TDy.Mesh TDy.Mesh.Proofs TDy.Topology

open Classical in
/-- The first number of the copy that stays. -/
noncomputable def rep (u : UG) (i k : Nat) : Nat :=
  if h : ∃ p : Nat × Nat, Dup u (Owned u) p.1 p.2 i k then off u h.choose.1 + h.choose.2 else off u i + k

theorem rep_dup {u : UG} (hc : Conforming u) {j l i k : Nat} (h : Dup u (Owned u) j l i k) :
    rep u i k = off u j + l := by
  have hex : ∃ p : Nat × Nat, Dup u (Owned u) p.1 p.2 i k := ⟨(j, l), h⟩
  obtain ⟨e1, e2⟩ := hex.choose_spec.unique hc h
  rw [rep, dif_pos hex, e1, e2]

theorem rep_own {u : UG} {i k : Nat} (h : ∀ j l, ¬ Dup u (Owned u) j l i k) : rep u i k = off u i + k := by
  rw [rep, dif_neg]
  rintro ⟨p, hp⟩
  exact h _ _ hp

/-- The copy that stays is a face of a cell and has the same vertices. -/
theorem rep_spec {u : UG} (hc : Conforming u) {i k : Nat} (hi : i < u.ng) (hk : k < u.nf i) :
    ∃ j l, j < u.ng ∧ l < u.nf j ∧ rep u i k = off u j + l ∧ faceSet u j l = faceSet u i k
      ∧ (∀ a b, ¬ Dup u (Owned u) a b j l) ∧ ((j = i ∧ l = k) ∨ Dup u (Owned u) j l i k) := by
  by_cases h : ∃ j l, Dup u (Owned u) j l i k
  · obtain ⟨j, l, h⟩ := h
    have := h.lt
    exact ⟨j, l, by omega, h.hl, rep_dup hc h, h.eq, fun a b hh => hh.no_chain hc h, .inr h⟩
  · have h' : ∀ j l, ¬ Dup u (Owned u) j l i k := fun j l hh => h ⟨j, l, hh⟩
    exact ⟨i, k, hi, hk, rep_own h', rfl, h', .inl ⟨rfl, rfl⟩⟩

/-- Two faces keep the same copy exactly when they are the same or one was merged into the other. -/
theorem rep_eq_iff {u : UG} (hc : Conforming u) {i k j l : Nat} (hi : i < u.ng) (hk : k < u.nf i) (hj : j < u.ng)
    (hl : l < u.nf j) : rep u i k = rep u j l ↔
      (i = j ∧ k = l) ∨ Dup u (Owned u) i k j l ∨ Dup u (Owned u) j l i k := by
  constructor
  · intro e
    obtain ⟨a, b, ha, hb, e1, _, _, c1⟩ := rep_spec hc hi hk
    obtain ⟨a', b', ha', hb', e2, _, _, c2⟩ := rep_spec hc hj hl
    obtain ⟨rfl, rfl⟩ := off_inj u hb hb' (e1.symm.trans (e.trans e2))
    rcases c1 with ⟨rfl, rfl⟩ | c1
    · rcases c2 with ⟨rfl, rfl⟩ | c2
      · exact .inl ⟨rfl, rfl⟩
      · exact .inr (.inl c2)
    · rcases c2 with ⟨rfl, rfl⟩ | c2
      · exact .inr (.inr c1)
      · exact .inl (c1.unique_right hc c2)
  · rintro (⟨rfl, rfl⟩ | h | h)
    · rfl
    · rw [rep_dup hc h, rep_own (fun a b hh => hh.no_chain hc h)]
    · rw [rep_dup hc h, rep_own (fun a b hh => hh.no_chain hc h)]

/-- Faces keep the same copy exactly when they have the same vertices, if one of the cells is owned. -/
theorem rep_eq_iff_faceSet {u : UG} (hc : Conforming u) {i k j l : Nat} (hi : i < u.ng) (hk : k < u.nf i)
    (hj : j < u.ng) (hl : l < u.nf j) (ho : i < u.nl ∨ j < u.nl) :
    rep u i k = rep u j l ↔ faceSet u i k = faceSet u j l := by
  rw [rep_eq_iff hc hi hk hj hl]
  constructor
  · rintro (⟨rfl, rfl⟩ | h | h)
    · rfl
    · exact h.eq
    · exact h.eq.symm
  · intro h
    rcases Nat.lt_trichotomy i j with hij | hij | hij
    · exact .inr (.inl ⟨hij, hj, show i < u.nl by omega, hk, hl, h⟩)
    · subst hij
      exact .inl ⟨rfl, faceSet_inj hc hi hk hl h⟩
    · exact .inr (.inr ⟨hij, hi, show j < u.nl by omega, hl, hk, h.symm⟩)

variable {u : UG} {m : Maps}

theorem merged_c2f (hc : Conforming u) (h : MergeInv u (Owned u) m) {i k : Nat} (hi : i < u.ng) (hk : k < u.nf i) :
    m.c2f k i = (rep u i k : Nat) := by
  by_cases hd : ∃ j l, Dup u (Owned u) j l i k
  · obtain ⟨j, l, hd⟩ := hd
    rw [rep_dup hc hd, (h.dup j l i k hd).1]
  · have h' : ∀ j l, ¬ Dup u (Owned u) j l i k := fun j l hh => hd ⟨j, l, hh⟩
    rw [rep_own h', (h.own i k hi hk h').1]

/-- The faces that stay are the ones that were not merged into another. -/
theorem kept_iff (h : MergeInv u (Owned u) m) {i k : Nat} (hi : i < u.ng) (hk : k < u.nf i) :
    kept m (off u i + k) = true ↔ ∀ j l, ¬ Dup u (Owned u) j l i k := by
  unfold kept
  rw [decide_eq_true_eq]
  constructor
  · intro hh j l hd
    have := (h.dup j l i k hd).2.1
    have := hd.lt
    omega
  · intro hn
    have := (h.own i k hi hk hn).2
    omega

theorem kept_lt (h : MergeInv u (Owned u) m) {f : Nat} (hf : kept m f = true) : f < off u u.ng := by
  by_contra hh
  have := h.rest f (by omega)
  rw [kept, decide_eq_true_eq] at hf
  omega

theorem off_le_six (hc : Conforming u) {n : Nat} (hn : n ≤ u.ng) : off u n ≤ 6*n := by
  induction n with
  | zero => exact Nat.le_refl _
  | succ n ih =>
    have := ih (by omega)
    have := (nf_le hc (show n < u.ng by omega)).1
    show off u n + u.nf n ≤ _
    omega

theorem kept_rep (hc : Conforming u) (h : MergeInv u (Owned u) m) {i k : Nat} (hi : i < u.ng) (hk : k < u.nf i) :
    kept m (rep u i k) = true := by
  obtain ⟨j, l, hj, hl, e, _, hn, _⟩ := rep_spec hc hi hk
  rw [e]
  exact (kept_iff h hj hl).2 hn

/-! ## Compacting -/

/-- The new number of a face. -/
def newId (m : Maps) (f : Nat) : Nat := Nat.count (fun f => kept m f = true) f

structure CompactInv (m : Maps) (n : Nat) (s : Faces) : Prop where
  num : s.num = newId m n
  f2v : ∀ f < n, kept m f = true → ∀ v < maxVerts, s.f2v v (newId m f) = m.f2v v f
  f2c : ∀ f < n, kept m f = true → ∀ e < 2, s.f2c e (newId m f) = m.f2c e f
  tmp : ∀ f < n, kept m f = true → s.tmp f = newId m f
  gone : ∀ f, ¬ (f < n ∧ kept m f = true) → s.tmp f = -1

theorem newId_lt (m : Maps) {f n : Nat} (hf : f < n) (h : kept m f = true) : newId m f < newId m n :=
  Nat.count_strict_mono (p := fun f => kept m f = true) h hf

theorem newId_inj (m : Maps) {f g : Nat} (hf : kept m f = true) (hg : kept m g = true) (h : newId m f = newId m g) :
    f = g := Nat.count_injective (p := fun f => kept m f = true) hf hg h

theorem newId_le (m : Maps) (f : Nat) : newId m f ≤ f := Nat.count_le _

theorem compact_spec (u : UG) (m : Maps) : CompactInv m (maxFaces*u.ng) (compact u m) := by
  unfold compact
  refine forN_invariant (maxFaces*u.ng) _ _ (fun n (s : Faces) => CompactInv m n s) ?_ ?_
  · exact ⟨by simp [newId], fun f hf => absurd hf (Nat.not_lt_zero f), fun f hf => absurd hf (Nat.not_lt_zero f),
      fun f hf => absurd hf (Nat.not_lt_zero f), fun _ _ => rfl⟩
  · intro n s _ h
    by_cases hk : kept m n = true
    · rw [if_pos hk]
      have old : ∀ f < n + 1, kept m f = true → f = n ∨ (f < n ∧ newId m f < newId m n) := by
        intro f hf hkf
        by_cases e : f = n
        · exact .inl e
        · exact .inr ⟨by omega, newId_lt m (by omega) hkf⟩
      refine ⟨?_, ?_, ?_, ?_, ?_⟩
      · show s.num + 1 = _
        rw [h.num, newId, newId, Nat.count_succ, if_pos hk]
      · intro f hf hkf v hv
        show forN maxVerts (fun v a => wr2 a v s.num (m.f2v v n)) s.f2v v (newId m f) = _
        rw [fill_f2v maxVerts s.num (fun v => m.f2v v n), h.num]
        rcases old f hf hkf with rfl | ⟨h1, h2⟩
        · rw [if_pos ⟨hv, rfl⟩]
        · rw [if_neg (by omega), h.f2v f h1 hkf v hv]
      · intro f hf hkf e he
        show forN 2 (fun e a => wr2 a e s.num (m.f2c e n)) s.f2c e (newId m f) = _
        rw [fill_f2v 2 s.num (fun e => m.f2c e n), h.num]
        rcases old f hf hkf with rfl | ⟨h1, h2⟩
        · rw [if_pos ⟨he, rfl⟩]
        · rw [if_neg (by omega), h.f2c f h1 hkf e he]
      · intro f hf hkf
        show wr s.tmp n (s.num : Int) f = _
        rcases old f hf hkf with rfl | ⟨h1, h2⟩
        · rw [wr_same, h.num]
        · rw [wr_other _ _ (by omega), h.tmp f h1 hkf]
      · intro f hf
        show wr s.tmp n (s.num : Int) f = _
        have hfn : f ≠ n := by rintro rfl; exact hf ⟨by omega, hk⟩
        rw [wr_other _ _ hfn]
        exact h.gone f (fun hh => hf ⟨by omega, hh.2⟩)
    · rw [if_neg hk]
      have old : ∀ f < n + 1, kept m f = true → f < n := by
        intro f hf hkf
        by_contra hh
        have : f = n := by omega
        exact hk (this ▸ hkf)
      refine ⟨?_, fun f hf hkf => h.f2v f (old f hf hkf) hkf, fun f hf hkf => h.f2c f (old f hf hkf) hkf,
        fun f hf hkf => h.tmp f (old f hf hkf) hkf, fun f hf => h.gone f (fun hh => hf ⟨by omega, hh.2⟩)⟩
      rw [h.num, newId, newId, Nat.count_succ, if_neg hk]
      rfl

/-- Every new number belongs to a face that stays. -/
theorem newId_surj (m : Maps) {n b : Nat} (h : b < newId m n) : ∃ f < n, kept m f = true ∧ newId m f = b := by
  induction n with
  | zero => simp [newId] at h
  | succ n ih =>
    by_cases h' : b < newId m n
    · obtain ⟨f, hf, hk, e⟩ := ih h'
      exact ⟨f, by omega, hk, e⟩
    · have e : newId m (n + 1) = newId m n + if kept m n = true then 1 else 0 := Nat.count_succ _ _
      by_cases hk : kept m n = true
      · rw [if_pos hk] at e
        exact ⟨n, by omega, hk, by omega⟩
      · rw [if_neg hk] at e
        omega

/-! ## Renumbering the faces of the cells -/

open Classical in
/-- The entries in `C` have their new number, the others the first number of the copy that stays. -/
def Mixed (u : UG) (m : Maps) (C : Nat → Nat → Prop) (c : Nat → Nat → Int) : Prop :=
  ∀ i < u.ng, ∀ k < u.nf i, c k i = if C i k then ((newId m (rep u i k) : Nat) : Int) else (rep u i k : Nat)

theorem tmp_small (hcm : CompactInv m (maxFaces*u.ng) (compact u m)) (a : Nat) : (compact u m).tmp a ≤ a := by
  by_cases h : a < maxFaces*u.ng ∧ kept m a = true
  · rw [hcm.tmp a h.1 h.2]
    have := newId_le m a
    omega
  · rw [hcm.gone a h]; omega

theorem rep_lt (hc : Conforming u) (h : MergeInv u (Owned u) m) {i k : Nat} (hi : i < u.ng) (hk : k < u.nf i) :
    rep u i k < maxFaces*u.ng := by
  have h1 := kept_lt h (kept_rep hc h hi hk)
  have h2 := off_le_six hc (Nat.le_refl u.ng)
  unfold maxFaces
  omega

/-- One side of a face: the entry of the cell gets the new number. -/
theorem remap_side (hc : Conforming u) (h : MergeInv u (Owned u) m) {C : Nat → Nat → Prop} {c : Nat → Nat → Int}
    (hm : Mixed u m C c) {b e i k : Nat} (hi : i < u.ng) (hk : k < u.nf i)
    (hside : (compact u m).f2c e b = (i : Int)) (hb : newId m (rep u i k) = b) (hC : ¬ C i k)
    (hsmall : ∀ l < u.nf i, C i l → newId m (rep u i l) < b) :
    ∃ c', remapStep u (compact u m) b e c = .ok c' ∧ Mixed u m (fun a l => C a l ∨ (a = i ∧ l = k)) c' := by
  have hcm := compact_spec u m
  unfold remapStep
  rw [hside, if_neg (by omega), Int.toNat_natCast]
  have hf : findEntry u (compact u m).tmp c i b = some k := by
    unfold findEntry
    refine find_unique (u.nf i) _ k hk ?_ ?_
    · rw [hm i hi k hk, if_neg hC, Int.toNat_natCast, hcm.tmp _ (rep_lt hc h hi hk) (kept_rep hc h hi hk), hb]
      simp
    · intro l hl hh
      rw [Bool.and_eq_true, beq_iff_eq] at hh
      rw [hm i hi l hl] at hh
      by_cases hCl : C i l
      · rw [if_pos hCl, Int.toNat_natCast] at hh
        have h1 := tmp_small (u := u) hcm (newId m (rep u i l))
        have h2 := hsmall l hl hCl
        omega
      · rw [if_neg hCl, Int.toNat_natCast, hcm.tmp _ (rep_lt hc h hi hl) (kept_rep hc h hi hl)] at hh
        have e : rep u i l = rep u i k :=
          newId_inj m (kept_rep hc h hi hl) (kept_rep hc h hi hk) (by omega)
        rcases (rep_eq_iff hc hi hl hi hk).1 e with ⟨_, e⟩ | hd | hd
        · exact e
        · exact absurd hd.lt (by omega)
        · exact absurd hd.lt (by omega)
  rw [hf]
  refine ⟨_, rfl, ?_⟩
  intro a ha l hl
  by_cases hal : a = i ∧ l = k
  · obtain ⟨rfl, rfl⟩ := hal
    rw [wr2_same, if_pos (.inr ⟨rfl, rfl⟩), hb]
  · rw [wr2_other _ _ (fun hh => hal ⟨hh.2, hh.1⟩), hm a ha l hl]
    by_cases hCa : C a l
    · rw [if_pos hCa, if_pos (.inl hCa)]
    · rw [if_neg hCa, if_neg (by rintro (hh | hh); exacts [hCa hh, hal hh])]

theorem Mixed.congr {C D : Nat → Nat → Prop} {c : Nat → Nat → Int} (h : Mixed u m C c)
    (e : ∀ i < u.ng, ∀ k < u.nf i, (C i k ↔ D i k)) : Mixed u m D c := by
  intro i hi k hk
  rw [h i hi k hk]
  by_cases hh : C i k
  · rw [if_pos hh, if_pos ((e i hi k hk).1 hh)]
  · rw [if_neg hh, if_neg (fun hd => hh ((e i hi k hk).2 hd))]

/-- One face: all entries that refer to it get the new number. -/
theorem remap_face (hc : Conforming u) (h : MergeInv u (Owned u) m) {b : Nat} {c : Nat → Nat → Int}
    (hb : b < (compact u m).num) (hm : Mixed u m (fun i k => newId m (rep u i k) < b) c) :
    ∃ c', forN 2 (fun e (r : Res (Nat → Nat → Int)) => r.bind (remapStep u (compact u m) b e)) (.ok c) = .ok c'
      ∧ Mixed u m (fun i k => newId m (rep u i k) < b + 1) c' := by
  have hcm := compact_spec u m
  rw [hcm.num] at hb
  obtain ⟨f, hf, hkf, hfb⟩ := newId_surj m hb
  obtain ⟨j, l, hj, hl, rfl⟩ := off_surj u (kept_lt h hkf)
  have hno := (kept_iff h hj hl).1 hkf
  have hrep := rep_own hno
  have hs0 : (compact u m).f2c 0 b = (j : Int) := by
    rw [← hfb, hcm.f2c _ hf hkf 0 (by omega), (h.own j l hj hl hno).2]
  have hs1 : (compact u m).f2c 1 b = m.f2c 1 (off u j + l) := by
    rw [← hfb, hcm.f2c _ hf hkf 1 (by omega)]
  obtain ⟨c1, e1, hm1⟩ := remap_side hc h hm hj hl hs0 (by rw [hrep, hfb])
    (by show ¬ newId m (rep u j l) < b; rw [hrep, hfb]; omega) (fun _ _ hh => hh)
  show ∃ c', ((remapStep u (compact u m) b 0 c).bind (remapStep u (compact u m) b 1)) = .ok c' ∧ _
  rw [e1]
  show ∃ c', remapStep u (compact u m) b 1 c1 = .ok c' ∧ _
  -- the entries with number `b` are those of the one or two cells
  have which : ∀ i < u.ng, ∀ k < u.nf i, newId m (rep u i k) = b →
      (i = j ∧ k = l) ∨ Dup u (Owned u) j l i k := by
    intro i hi k hk e
    have e' : rep u i k = rep u j l :=
      newId_inj m (kept_rep hc h hi hk) (kept_rep hc h hj hl) (by rw [e, hrep, hfb])
    rcases (rep_eq_iff hc hi hk hj hl).1 e' with hh | hh | hh
    · exact .inl hh
    · exact absurd hh (hno i k)
    · exact .inr hh
  by_cases hd : ∃ i k, Dup u (Owned u) j l i k
  · obtain ⟨i, k, hd⟩ := hd
    have hlt := hd.lt
    have hri : newId m (rep u i k) = b := by rw [rep_dup hc hd, hfb]
    obtain ⟨c2, e2, hm2⟩ := remap_side hc h hm1 hd.ng hd.hk (hs1.trans (h.dup j l i k hd).2.2) hri
      (by rintro (hh | hh)
          · exact absurd hh (by show ¬ newId m (rep u i k) < b; omega)
          · omega)
      (by rintro a ha (hh | hh)
          · exact hh
          · omega)
    refine ⟨c2, e2, hm2.congr ?_⟩
    intro a ha d hda
    constructor
    · rintro ((hh | ⟨rfl, rfl⟩) | ⟨rfl, rfl⟩)
      · exact Nat.lt_succ_of_lt hh
      · rw [hrep, hfb]; omega
      · rw [hri]; omega
    · intro hh
      rcases Nat.lt_succ_iff_lt_or_eq.1 hh with h' | h'
      · exact .inl (.inl h')
      · rcases which a ha d hda h' with h'' | h''
        · exact .inl (.inr h'')
        · obtain ⟨rfl, rfl⟩ := h''.unique_right hc hd
          exact .inr ⟨rfl, rfl⟩
  · have hd' : ∀ i k, ¬ Dup u (Owned u) j l i k := fun i k hh => hd ⟨i, k, hh⟩
    refine ⟨c1, ?_, hm1.congr ?_⟩
    · unfold remapStep
      rw [if_pos]
      rw [hs1, h.single j l hj hl hd']
      omega
    · intro a ha d hda
      constructor
      · rintro (hh | ⟨rfl, rfl⟩)
        · exact Nat.lt_succ_of_lt hh
        · rw [hrep, hfb]; omega
      · intro hh
        rcases Nat.lt_succ_iff_lt_or_eq.1 hh with h' | h'
        · exact .inl h'
        · rcases which a ha d hda h' with h'' | h''
          · exact .inr h''
          · exact absurd h'' (hd' a d)

/-- The renumbering succeeds and gives every face of every cell its new number. -/
theorem remap_ok (hc : Conforming u) (h : MergeInv u (Owned u) m) :
    ∃ c, remap u (compact u m) m.c2f = .ok c
      ∧ ∀ i < u.ng, ∀ k < u.nf i, c k i = (newId m (rep u i k) : Nat) := by
  have key : ∃ c, remap u (compact u m) m.c2f = .ok c
      ∧ Mixed u m (fun i k => newId m (rep u i k) < (compact u m).num) c := by
    unfold remap
    refine forN_invariant (compact u m).num _ _
      (fun b (r : Res (Nat → Nat → Int)) => ∃ c, r = .ok c ∧ Mixed u m (fun i k => newId m (rep u i k) < b) c) ?_ ?_
    · refine ⟨_, rfl, ?_⟩
      intro i hi k hk
      rw [if_neg (Nat.not_lt_zero _), merged_c2f hc h hi hk]
    · rintro b r hb ⟨c, rfl, hm⟩
      exact remap_face hc h hb hm
  obtain ⟨c, e, hm⟩ := key
  refine ⟨c, e, ?_⟩
  intro i hi k hk
  rw [hm i hi k hk, if_pos]
  rw [(compact_spec u m).num]
  exact newId_lt m (rep_lt hc h hi hk) (kept_rep hc h hi hk)

end TDy.Custom.Proofs
