import Verif.Proofs.MeshFacesNumber

/-!
# Internal faces of an imported mesh
-/

namespace TDy.Custom.Proofs

open TDy.Custom TDy.Custom.Spec TDy.Mesh TDy.Mesh.Proofs TDy.Topology

variable {u : UG} {m : Maps}

theorem numbered {c2f : Nat → Nat → Int} (hc : Conforming u) (h : MergeInv u (Owned u) m)
    (hr : ∀ i < u.ng, ∀ k < u.nf i, c2f k i = (newId m (rep u i k) : Nat)) :
    NumberedOnce u (compact u m).num c2f (compact u m).f2v (compact u m).f2c := by
  have hcm := compact_spec u m
  have inj : ∀ i < u.ng, ∀ k < u.nf i, ∀ j < u.ng, ∀ l < u.nf j, c2f k i = c2f l j ↔ rep u i k = rep u j l := by
    intro i hi k hk j hj l hl
    rw [hr i hi k hk, hr j hj l hl]
    constructor
    · intro e
      exact newId_inj m (kept_rep hc h hi hk) (kept_rep hc h hj hl) (by omega)
    · intro e; rw [e]
  refine ⟨?_, ?_, ?_, ?_, ?_, ?_⟩
  · intro i hi k hk
    have := newId_lt m (rep_lt hc h hi hk) (kept_rep hc h hi hk)
    rw [hr i hi k hk, hcm.num]
    omega
  · intro n hn
    rw [hcm.num] at hn
    obtain ⟨f, _, hkf, e⟩ := newId_surj m hn
    obtain ⟨i, k, hi, hk, rfl⟩ := off_surj u (kept_lt h hkf)
    refine ⟨i, k, hi, hk, ?_⟩
    rw [hr i hi k hk, rep_own ((kept_iff h hi hk).1 hkf), e]
  · intro i hi k hk j hj l hl ho
    rw [inj i hi k hk j hj l hl, rep_eq_iff_faceSet hc hi hk hj hl ho]
  · intro i hi k hk j hj l hl e
    rcases (rep_eq_iff hc hi hk hj hl).1 ((inj i hi k hk j hj l hl).1 e) with ⟨rfl, rfl⟩ | hd | hd
    · rfl
    · exact hd.eq
    · exact hd.eq.symm
  · intro i hi k hk x
    rw [hr i hi k hk, Int.toNat_natCast, ← h.good hc i hi k hk x, merged_c2f hc h hi hk, Int.toNat_natCast]
    have hv := (corners_spec hc hi hk).2.2.2.2
    constructor
    · rintro ⟨v, hv', e⟩
      exact ⟨v, hv', by
        rw [← e, hcm.f2v _ (rep_lt hc h hi hk) (kept_rep hc h hi hk) v (show v < 4 by omega)]⟩
    · rintro ⟨v, hv', e⟩
      exact ⟨v, hv', by
        rw [← e, hcm.f2v _ (rep_lt hc h hi hk) (kept_rep hc h hi hk) v (show v < 4 by omega)]⟩
  · intro n hn i hi
    rw [hcm.num] at hn
    obtain ⟨f, hf, hkf, e⟩ := newId_surj m hn
    obtain ⟨j, l, hj, hl, rfl⟩ := off_surj u (kept_lt h hkf)
    have hno := (kept_iff h hj hl).1 hkf
    have hs : ∀ s < 2, (compact u m).f2c s n = m.f2c s (off u j + l) := by
      intro s hs; rw [← e, hcm.f2c _ hf hkf s hs]
    have hs0 : (compact u m).f2c 0 n = (j : Int) := by rw [hs 0 (by omega), (h.own j l hj hl hno).2]
    have hjl : c2f l j = (n : Int) := by rw [hr j hj l hl, rep_own hno, e]
    constructor
    · rintro ⟨s, hs2, es⟩
      rcases (by omega : s = 0 ∨ s = 1) with rfl | rfl
      · rw [hs0] at es
        have : i = j := by omega
        subst this
        exact ⟨l, hl, hjl⟩
      · rw [hs 1 (by omega)] at es
        by_cases hd : ∃ a b, Dup u (Owned u) j l a b
        · obtain ⟨a, b, hd⟩ := hd
          rw [(h.dup j l a b hd).2.2] at es
          have : i = a := by omega
          subst this
          exact ⟨b, hd.hk, by rw [hr i hi b hd.hk, rep_dup hc hd, e]⟩
        · rw [h.single j l hj hl (fun a b hh => hd ⟨a, b, hh⟩)] at es
          omega
    · rintro ⟨k, hk, ek⟩
      have : rep u i k = rep u j l := (inj i hi k hk j hj l hl).1 (by rw [ek, hjl])
      rcases (rep_eq_iff hc hi hk hj hl).1 this with ⟨rfl, rfl⟩ | hd | hd
      · exact ⟨0, by omega, hs0⟩
      · exact absurd hd (hno i k)
      · exact ⟨1, by omega, by rw [hs 1 (by omega), (h.dup j l i k hd).2.2]⟩

/-! ## Connections -/

/-- The pairs of an owned cell and a position in its neighbour list, in the order of the loops. -/
def sides (u : UG) : List (Nat × Nat) :=
  (List.range u.nl).flatMap (fun i => (List.range (u.nnb i)).map (fun d => (i, d)))

theorem mem_sides {i d : Nat} : (i, d) ∈ sides u ↔ i < u.nl ∧ d < u.nnb i := by
  simp [sides]

theorem nodup_sides (u : UG) : (sides u).Nodup := by
  unfold sides
  rw [List.nodup_flatMap]
  refine ⟨fun i _ => (List.nodup_range).map (fun a b e => by simpa using e), ?_⟩
  refine List.Pairwise.imp ?_ (List.nodup_range (n := u.nl))
  intro a b hab x hx hy
  obtain ⟨c, _, rfl⟩ := List.mem_map.1 hx
  obtain ⟨d, _, e⟩ := List.mem_map.1 hy
  exact hab (by simpa using (congrArg Prod.fst e).symm)

theorem forN_sides {σ : Type*} (u : UG) (f : Nat → Nat → σ → σ) (s : σ) :
    forN u.nl (fun i s => forN (u.nnb i) (f i) s) s = (sides u).foldl (fun s p => f p.1 p.2 s) s := by
  rw [forN_foldl, sides, List.foldl_flatMap]
  congr 1
  funext s i
  rw [forN_foldl, List.foldl_map]

/-- The pairs for which a face is made: the neighbour has a larger number. -/
def upper (u : UG) (p : Nat × Nat) : Bool := decide (p.1 < (u.nb p.1 p.2).natAbs)

theorem countConns_eq (hm : Marked u) : countConns u = ((sides u).filter (upper u)).length := by
  have e : countConns u = (sides u).foldl (fun n p => if u.nb p.1 p.2 < 0 ∨ (p.1 : Int) < u.nb p.1 p.2 then n + 1
      else n) 0 := forN_sides u (fun i d n => if u.nb i d < 0 ∨ (i : Int) < u.nb i d then n + 1 else n) 0
  rw [e]
  have key : ∀ l : List (Nat × Nat), (∀ p ∈ l, p ∈ sides u) → ∀ n,
      l.foldl (fun n p => if u.nb p.1 p.2 < 0 ∨ (p.1 : Int) < u.nb p.1 p.2 then n + 1 else n) n
        = n + (l.filter (upper u)).length := by
    intro l
    induction l with
    | nil => intro _ n; rfl
    | cons p l ih =>
      intro hl n
      obtain ⟨h1, h2⟩ := mem_sides.1 (hl p List.mem_cons_self)
      have hmk := hm p.1 h1 p.2 h2
      rw [List.foldl_cons, ih (fun q hq => hl q (List.mem_cons_of_mem _ hq))]
      by_cases hu : upper u p = true
      · have hu' : p.1 < (u.nb p.1 p.2).natAbs := by simpa [upper] using hu
        rw [List.filter_cons_of_pos hu, List.length_cons, if_pos (by omega)]
        omega
      · have hu' : ¬ p.1 < (u.nb p.1 p.2).natAbs := by simpa [upper] using hu
        rw [List.filter_cons_of_neg hu, if_neg (by omega)]
  rw [key _ (fun _ h => h), Nat.zero_add]

/-- What is stored for the `n`-th face. -/
structure ConnAt (u : UG) (c2f : Nat → Nat → Int) (p : Nat × Nat) (s : Conns) (n : Nat) : Prop where
  left : s.left n = p.1
  right : s.right n = ((u.nb p.1 p.2).natAbs : Nat)
  face : ∃ k k2, k < u.nf p.1 ∧ k2 < u.nf (u.nb p.1 p.2).natAbs
    ∧ faceSet u p.1 k = faceSet u (u.nb p.1 p.2).natAbs k2
    ∧ s.id n = c2f k p.1 ∧ s.conn n = c2f k p.1 ∧ s.nverts n = (faceSet u p.1 k).card

structure ConnsInv (u : UG) (c2f : Nat → Nat → Int) (l : List (Nat × Nat)) (s : Conns) : Prop where
  num : s.num = (l.filter (upper u)).length
  at_ : ∀ n (h : n < (l.filter (upper u)).length), ConnAt u c2f ((l.filter (upper u))[n]) s n

theorem faceType_of_card (hc : Conforming u) {i k j l : Nat} (hi : i < u.ng) (hk : k < u.nf i) (hj : j < u.ng)
    (hl : l < u.nf j) (h : faceSet u i k = faceSet u j l) :
    faceType (u.ct i) k = faceType (u.ct j) l
      ∧ faceTypeVertices (faceType (u.ct i) k) = ((faceSet u i k).card : Int) := by
  have h1 := faceSet_card hc hi hk
  have h2 := faceSet_card hc hj hl
  have key : ∀ i k, i < u.ng → k < u.nf i → (u.nvf i k = 3 ∧ faceType (u.ct i) k = 0)
      ∨ (u.nvf i k = 4 ∧ faceType (u.ct i) k = 1) := by
    intro i k hi hk
    unfold UG.nvf
    rcases type_cases hc hi with ⟨e, _, f⟩ | ⟨e, _, f⟩ | ⟨e, _, f⟩ | ⟨e, _, f⟩ <;> rw [e] <;> rw [f] at hk <;>
      interval_cases k <;> decide
  rw [h] at h1
  rcases key i k hi hk with ⟨a, b⟩ | ⟨a, b⟩ <;> rcases key j l hj hl with ⟨a', b'⟩ | ⟨a', b'⟩
  · exact ⟨by rw [b, b'], by rw [b, h, h2, a']; rfl⟩
  · omega
  · omega
  · exact ⟨by rw [b, b'], by rw [b, h, h2, a']; rfl⟩

theorem connStep_ok {N : Nat} {c2f f2v f2c : Nat → Nat → Int} (hc : Conforming u)
    (hn : NumberedOnce u N c2f f2v f2c) {l : List (Nat × Nat)} {s : Conns} (h : ConnsInv u c2f l s) {p : Nat × Nat}
    (hp : p ∈ sides u) : ∃ s', connStep u c2f f2c p.1 p.2 s = .ok s' ∧ ConnsInv u c2f (l ++ [p]) s' := by
  obtain ⟨i, d⟩ := p
  obtain ⟨hi, hd⟩ := mem_sides.1 hp
  have hig : i < u.ng := Nat.lt_of_lt_of_le hi hc.owned
  obtain ⟨hr, hne⟩ := hc.range i hi d hd
  unfold connStep
  simp only []
  by_cases hup : i < (u.nb i d).natAbs
  · rw [if_pos hup]
    obtain ⟨k, k2, hk, hk2, heq⟩ := hc.sound i hi d hd
    have hsame := (hn.same i hig k hk _ hr k2 hk2 (.inl hi)).2 heq
    have hft : faceTowards u c2f f2c i (u.nb i d).natAbs = some k := by
      unfold faceTowards
      have iff : ∀ a < u.nf i, ((List.range 2).any (fun e => f2c e (c2f a i).toNat == (((u.nb i d).natAbs : Nat) : Int)))
          = true ↔ ∃ b < u.nf (u.nb i d).natAbs, c2f b (u.nb i d).natAbs = c2f a i := by
        intro a ha
        obtain ⟨r1, r2⟩ := hn.range i hig a ha
        have := hn.cells (c2f a i).toNat (by omega) (u.nb i d).natAbs hr
        rw [Int.toNat_of_nonneg r1] at this
        rw [← this]
        simp [List.any_eq_true]
      refine find_unique (u.nf i) _ k hk ((iff k hk).2 ⟨k2, hk2, hsame.symm⟩) ?_
      intro a ha hh
      obtain ⟨b, hb, e⟩ := (iff a ha).1 hh
      have := (hn.same i hig a ha _ hr b hb (.inl hi)).1 e.symm
      exact (hc.single i hig _ hr (by omega) a ha k hk b hb k2 hk2 this heq).1
    have hsf : sameFace u c2f i k (u.nb i d).natAbs = .ok (some k2) := by
      unfold sameFace
      have hle := nf_le hc hr
      have hfind : (List.range (min (u.nv (u.nb i d).natAbs) maxFaces)).find?
          (fun k2 => c2f k i == c2f k2 (u.nb i d).natAbs) = some k2 := by
        have hsplit : min (u.nv (u.nb i d).natAbs) maxFaces
            = u.nf (u.nb i d).natAbs + (min (u.nv (u.nb i d).natAbs) maxFaces - u.nf (u.nb i d).natAbs) := by
          unfold maxFaces; omega
        rw [hsplit, List.range_add, List.find?_append,
          find_unique (u.nf (u.nb i d).natAbs) _ k2 hk2 (by simpa using hsame) ?_]
        · rfl
        · intro b hb hh
          have e : c2f k i = c2f b (u.nb i d).natAbs := by simpa using hh
          have := (hn.same i hig k hk _ hr b hb (.inl hi)).1 e
          exact faceSet_inj hc hr hb hk2 (this.symm.trans heq)
      rw [hfind]
    obtain ⟨ht, hv⟩ := faceType_of_card hc hig hk hr hk2 heq
    rw [hft]
    simp only [hsf]
    rw [if_pos ht]
    refine ⟨_, rfl, ?_⟩
    have hf : (l ++ [(i, d)]).filter (upper u) = l.filter (upper u) ++ [(i, d)] := by
      rw [List.filter_append]
      congr 1
      exact List.filter_cons_of_pos (by simpa [upper] using hup)
    refine ⟨?_, ?_⟩
    · rw [hf, List.length_append, List.length_singleton, ← h.num]
    · simp only [hf, List.length_append, List.length_singleton]
      intro n hnl
      by_cases hlt : n < (l.filter (upper u)).length
      · rw [List.getElem_append_left hlt]
        obtain ⟨a1, a2, a, b, ha, hb, e1, e2, e3, e4⟩ := h.at_ n hlt
        have hnn : n ≠ s.num := by rw [h.num]; omega
        exact ⟨(wr_other _ _ hnn).trans a1, (wr_other _ _ hnn).trans a2,
          a, b, ha, hb, e1, (wr_other _ _ hnn).trans e2, (wr_other _ _ hnn).trans e3,
          (wr_other _ _ hnn).trans e4⟩
      · have hnn : n = (l.filter (upper u)).length := by omega
        subst hnn
        have hel : (l.filter (upper u) ++ [(i, d)])[(l.filter (upper u)).length]'(by simp) = (i, d) := by simp
        rw [hel, ← h.num]
        exact ⟨wr_same _ _ _, wr_same _ _ _, k, k2, hk, hk2, heq, wr_same _ _ _, wr_same _ _ _, (wr_same _ _ _).trans hv⟩
  · rw [if_neg hup]
    refine ⟨s, rfl, ?_⟩
    have hf : (l ++ [(i, d)]).filter (upper u) = l.filter (upper u) := by
      rw [List.filter_append, List.filter_cons_of_neg (by simpa [upper] using hup)]
      simp
    refine ⟨by rw [hf]; exact h.num, ?_⟩
    simp only [hf]
    exact h.at_

theorem createInternal_ok {N : Nat} {c2f f2v f2c : Nat → Nat → Int} (hc : Conforming u)
    (hn : NumberedOnce u N c2f f2v f2c) : ∃ s, createInternal u c2f f2c = .ok s ∧ ConnsInv u c2f (sides u) s := by
  have e : createInternal u c2f f2c = (sides u).foldl
      (fun (r : Res Conns) p => r.bind (connStep u c2f f2c p.1 p.2))
      (.ok ⟨0, fun _ => -1, fun _ => -1, fun _ => -1, fun _ => -1, fun _ => -1⟩) :=
    forN_sides u (fun i d (r : Res Conns) => r.bind (connStep u c2f f2c i d)) _
  rw [e]
  have key : ∀ l : List (Nat × Nat), (∀ p ∈ l, p ∈ sides u) → ∃ s, l.foldl
      (fun (r : Res Conns) p => r.bind (connStep u c2f f2c p.1 p.2))
      (.ok ⟨0, fun _ => -1, fun _ => -1, fun _ => -1, fun _ => -1, fun _ => -1⟩) = .ok s ∧ ConnsInv u c2f l s := by
    intro l
    induction l using List.reverseRecOn with
    | nil => intro _; exact ⟨_, rfl, rfl, fun n h => absurd h (Nat.not_lt_zero n)⟩
    | append_singleton l p ih =>
      intro hl
      obtain ⟨s, es, hs⟩ := ih (fun q hq => hl q (List.mem_append_left _ hq))
      rw [List.foldl_append, es]
      exact connStep_ok hc hn hs (hl p (List.mem_append_right _ List.mem_cons_self))
  exact key _ (fun _ h => h)

end TDy.Custom.Proofs
