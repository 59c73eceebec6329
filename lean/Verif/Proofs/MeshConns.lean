import Verif.Proofs.MeshConnect

/-!
# The list of connections
-/

namespace TDy.Traverse.Proofs

open TDy.Traverse TDy.Traverse.Spec

variable {m : TMesh} {v : Nat}

/-- Different as connections, regardless of the direction. -/
def UDiff (p q : ℤ × ℤ) : Prop := p ≠ q ∧ p ≠ q.swap

theorem UDiff.symm {p q : ℤ × ℤ} (h : UDiff p q) : UDiff q p := by
  refine ⟨h.1.symm, ?_⟩
  intro e
  apply h.2
  rw [e, Prod.swap_swap]

theorem takeWhile_range {P : Nat → Bool} {k N : Nat} (hk : k ≤ N) (h : ∀ i < k, P i = true)
    (hend : k = N ∨ P k = false) : (List.range N).takeWhile P = List.range k := by
  obtain ⟨d, rfl⟩ := Nat.exists_eq_add_of_le hk
  rw [List.range_add, List.takeWhile_append_of_pos (fun a ha => h a (List.mem_range.1 ha))]
  have : ((List.range d).map (k + ·)).takeWhile P = [] := by
    cases d with
    | zero => rfl
    | succ d =>
      have hP : P k = false := by
        rcases hend with e | e
        · omega
        · exact e
      rw [List.range_succ_eq_map, List.map_cons, List.takeWhile_cons]
      simp [hP]
  rw [this, List.append_nil]

/-- The entry that follows the `i`-th of a row. -/
theorem row_next {T : List Nat} {N i : Nat} (hN : T.length ≤ N) (hi : i < T.length) :
    (let b0 := if i = N - 1 then rowOf T 0 else rowOf T (i + 1)
     if b0 = -1 then rowOf T 0 else b0) = ((T.getD ((i + 1) % T.length) 0 : Nat) : ℤ) := by
  have hpos : 0 < T.length := by omega
  have h0 := rowOf_lt hpos
  have hne : ∀ n : Nat, (n : ℤ) ≠ -1 := by intro n; omega
  simp only
  by_cases h1 : i = N - 1
  · have hl : i + 1 = T.length := by omega
    rw [if_pos h1, hl, Nat.mod_self, h0, if_neg (hne _)]
  · rw [if_neg h1]
    rcases Nat.lt_or_ge (i + 1) T.length with h | h
    · rw [rowOf_lt h, Nat.mod_eq_of_lt h, if_neg (hne _)]
    · have hl : i + 1 = T.length := by omega
      rw [rowOf_ge h, if_pos rfl, hl, Nat.mod_self, h0]

/-- One connection of a level. -/
def levelPair (nc : Nat) (flip : Bool) (T : List Nat) (i : Nat) : Option (ℤ × ℤ) :=
  if (nc : ℤ) ≤ ((T.getD i 0 : Nat) : ℤ) ∧ (nc : ℤ) ≤ ((T.getD ((i + 1) % T.length) 0 : Nat) : ℤ)
  then none
  else some (if flip then (((T.getD ((i + 1) % T.length) 0 : Nat) : ℤ), ((T.getD i 0 : Nat) : ℤ))
    else (((T.getD i 0 : Nat) : ℤ), ((T.getD ((i + 1) % T.length) 0 : Nat) : ℤ)))

theorem levelConns_eq {T : List Nat} {N nc : Nat} {flip : Bool} (hN : T.length ≤ N) :
    levelConns N nc flip (rowOf T) = (List.range T.length).filterMap (levelPair nc flip T) := by
  unfold levelConns
  rw [takeWhile_range hN]
  · apply List.filterMap_congr
    intro i hi
    have hil := List.mem_range.1 hi
    have hb := row_next hN hil
    simp only at hb
    simp only [hb, rowOf_lt hil]
    rfl
  · intro i hi
    rw [rowOf_lt hi]
    simp
  · right
    rw [rowOf_ge (le_refl _)]
    simp

def crossPair (nc : Nat) (T0 T1 : List Nat) (i : Nat) : Option (ℤ × ℤ) :=
  if (nc : ℤ) ≤ ((T0.getD i 0 : Nat) : ℤ) ∧ (nc : ℤ) ≤ ((T1.getD i 0 : Nat) : ℤ) then none
  else some (if i % 2 = 0 then (((T0.getD i 0 : Nat) : ℤ), ((T1.getD i 0 : Nat) : ℤ))
    else (((T1.getD i 0 : Nat) : ℤ), ((T0.getD i 0 : Nat) : ℤ)))

theorem crossConns_eq {T0 T1 : List Nat} {N nc : Nat} (h0 : T0.length ≤ N) :
    crossConns N nc (rowOf T0) (rowOf T1)
      = (List.range (min T0.length T1.length)).filterMap (crossPair nc T0 T1) := by
  unfold crossConns
  rw [takeWhile_range (k := min T0.length T1.length) (by omega)]
  · apply List.filterMap_congr
    intro i hi
    have hil := List.mem_range.1 hi
    rw [rowOf_lt (l := T0) (by omega), rowOf_lt (l := T1) (by omega)]
    rfl
  · intro i hi
    rw [rowOf_lt (l := T0) (by omega), rowOf_lt (l := T1) (by omega)]
    simp
  · right
    rcases Nat.le_total T0.length T1.length with h | h
    · rw [min_eq_left h, rowOf_ge (le_refl _)]; simp
    · rw [min_eq_right h, rowOf_ge (l := T1) (le_refl _)]; simp

theorem getD_num {E : List Ent} {i : Nat} {e : Ent} (h : E[i]? = some e) :
    (E.map (Ent.num m v)).getD i 0 = e.num m v := by
  rw [List.getD_eq_getElem?_getD, List.getElem?_map, h]
  rfl

theorem num_face_iff {e : Ent} (h : e.Ok m v) :
    ((m.vCells v).length : ℤ) ≤ ((e.num m v : Nat) : ℤ) ↔ e.isFace := by
  rw [← num_isFace h]; exact_mod_cast Iff.rfl

open Classical in
theorem mem_level {E : List Ent} {flip : Bool} (hok : ∀ e ∈ E, e.Ok m v) (hn : E.Nodup)
    (p : ℤ × ℤ) :
    p ∈ levelConns ((m.vCells v).length + (m.vBnd v).length) (m.vCells v).length flip
      (rowOf (E.map (Ent.num m v))) ↔
    ∃ i e e', E[i]? = some e ∧ E[(i + 1) % E.length]? = some e' ∧ ¬ (e.isFace ∧ e'.isFace) ∧
      p = if flip then ((e'.num m v : ℤ), (e.num m v : ℤ)) else ((e.num m v : ℤ), (e'.num m v : ℤ)) := by
  rw [levelConns_eq (by simpa using length_le_room hn hok), List.mem_filterMap]
  have key : ∀ i e e', E[i]? = some e → E[(i + 1) % E.length]? = some e' →
      levelPair (m.vCells v).length flip (E.map (Ent.num m v)) i
        = if e.isFace ∧ e'.isFace then none
          else some (if flip then ((e'.num m v : ℤ), (e.num m v : ℤ))
            else ((e.num m v : ℤ), (e'.num m v : ℤ))) := by
    intro i e e' he he'
    unfold levelPair
    rw [List.length_map, getD_num he, getD_num he']
    exact if_congr (and_congr (num_face_iff (hok e (List.mem_of_getElem? he)))
      (num_face_iff (hok e' (List.mem_of_getElem? he')))) rfl rfl
  constructor
  · rintro ⟨i, hi, h⟩
    have hil : i < E.length := by simpa using hi
    have he : E[i]? = some E[i] := List.getElem?_eq_getElem hil
    have hml : (i + 1) % E.length < E.length := Nat.mod_lt _ (by omega)
    have he' : E[(i + 1) % E.length]? = some E[(i + 1) % E.length] := List.getElem?_eq_getElem hml
    rw [key i _ _ he he'] at h
    split_ifs at h with hf
    · exact ⟨i, _, _, he, he', hf, by rw [if_pos (by assumption)]; exact (Option.some.inj h).symm⟩
    · exact ⟨i, _, _, he, he', hf, by rw [if_neg (by assumption)]; exact (Option.some.inj h).symm⟩
  · rintro ⟨i, e, e', he, he', hf, hp⟩
    have hil := (List.getElem?_eq_some_iff.1 he).1
    refine ⟨i, by simpa using hil, ?_⟩
    rw [key i e e' he he', if_neg hf, hp]

open Classical in
theorem mem_cross {E0 E1 : List Ent} (h0 : ∀ e ∈ E0, e.Ok m v) (h1 : ∀ e ∈ E1, e.Ok m v)
    (hn : E0.Nodup) (p : ℤ × ℤ) :
    p ∈ crossConns ((m.vCells v).length + (m.vBnd v).length) (m.vCells v).length
      (rowOf (E0.map (Ent.num m v))) (rowOf (E1.map (Ent.num m v))) ↔
    ∃ i e e', E0[i]? = some e ∧ E1[i]? = some e' ∧ ¬ (e.isFace ∧ e'.isFace) ∧
      p = if i % 2 = 0 then ((e.num m v : ℤ), (e'.num m v : ℤ))
        else ((e'.num m v : ℤ), (e.num m v : ℤ)) := by
  rw [crossConns_eq (by simpa using length_le_room hn h0), List.mem_filterMap]
  have key : ∀ i e e', E0[i]? = some e → E1[i]? = some e' →
      crossPair (m.vCells v).length (E0.map (Ent.num m v)) (E1.map (Ent.num m v)) i
        = if e.isFace ∧ e'.isFace then none
          else some (if i % 2 = 0 then ((e.num m v : ℤ), (e'.num m v : ℤ))
            else ((e'.num m v : ℤ), (e.num m v : ℤ))) := by
    intro i e e' he he'
    unfold crossPair
    rw [getD_num he, getD_num he']
    exact if_congr (and_congr (num_face_iff (h0 e (List.mem_of_getElem? he)))
      (num_face_iff (h1 e' (List.mem_of_getElem? he')))) rfl rfl
  constructor
  · rintro ⟨i, hi, h⟩
    have hil : i < min E0.length E1.length := by simpa using hi
    have he : E0[i]? = some E0[i] := List.getElem?_eq_getElem (by omega)
    have he' : E1[i]? = some E1[i] := List.getElem?_eq_getElem (by omega)
    rw [key i _ _ he he'] at h
    split_ifs at h with hf
    · exact ⟨i, _, _, he, he', hf, by rw [if_pos (by assumption)]; exact (Option.some.inj h).symm⟩
    · exact ⟨i, _, _, he, he', hf, by rw [if_neg (by assumption)]; exact (Option.some.inj h).symm⟩
  · rintro ⟨i, e, e', he, he', hf, hp⟩
    have hil := (List.getElem?_eq_some_iff.1 he).1
    have hil' := (List.getElem?_eq_some_iff.1 he').1
    refine ⟨i, by simp; omega, ?_⟩
    rw [key i e e' he he', if_neg hf, hp]

theorem getElem?_ext {E : List Ent} (hn : E.Nodup) {i j : Nat} {e : Ent} (hi : E[i]? = some e)
    (hj : E[j]? = some e) : i = j :=
  (List.getElem?_inj (List.getElem?_eq_some_iff.1 hi).1 hn).1 (hi.trans hj.symm)

/-- No two connections of a level are the same. -/
theorem level_pairwise {E : List Ent} {flip : Bool} (hok : ∀ e ∈ E, e.Ok m v) (hn : E.Nodup)
    (h3 : 3 ≤ E.length) :
    (levelConns ((m.vCells v).length + (m.vBnd v).length) (m.vCells v).length flip
      (rowOf (E.map (Ent.num m v)))).Pairwise UDiff := by
  rw [levelConns_eq (by simpa using length_le_room hn hok), List.pairwise_filterMap]
  have hlt := List.pairwise_lt_range (n := (E.map (Ent.num m v)).length)
  refine hlt.imp_of_mem ?_
  intro i j hi hj hij p hp q hq
  have hil : i < E.length := by simpa using hi
  have hjl : j < E.length := by simpa using hj
  have gi : E[i]? = some E[i] := List.getElem?_eq_getElem hil
  have gj : E[j]? = some E[j] := List.getElem?_eq_getElem hjl
  have hmi : (i + 1) % E.length < E.length := Nat.mod_lt _ (by omega)
  have hmj : (j + 1) % E.length < E.length := Nat.mod_lt _ (by omega)
  have gi' : E[(i + 1) % E.length]? = some E[(i + 1) % E.length] := List.getElem?_eq_getElem hmi
  have gj' : E[(j + 1) % E.length]? = some E[(j + 1) % E.length] := List.getElem?_eq_getElem hmj
  have inj : ∀ a b (ha : a < E.length) (hb : b < E.length),
      ((E[a].num m v : Nat) : ℤ) = ((E[b].num m v : Nat) : ℤ) → a = b := by
    intro a b ha hb h
    have h' : E[a].num m v = E[b].num m v := by exact_mod_cast h
    have he := num_inj (hok _ (List.getElem_mem ha)) (hok _ (List.getElem_mem hb)) h'
    exact (List.Nodup.getElem_inj_iff hn).1 he
  unfold levelPair at hp hq
  rw [List.length_map, getD_num gi, getD_num gi'] at hp
  rw [List.length_map, getD_num gj, getD_num gj'] at hq
  have hwrap : ¬ (i = (j + 1) % E.length ∧ (i + 1) % E.length = j) := by
    rintro ⟨h1, h2⟩
    rcases Nat.lt_or_ge (j + 1) E.length with h | h
    · rw [Nat.mod_eq_of_lt h] at h1; omega
    · have : j + 1 = E.length := by omega
      rw [this, Nat.mod_self] at h1
      subst h1
      rw [Nat.mod_eq_of_lt (by omega)] at h2
      omega
  split_ifs at hp hq
  all_goals
    have hp' := (Option.some.inj hp).symm
    have hq' := (Option.some.inj hq).symm
    subst hp' hq'
    refine ⟨?_, ?_⟩
    · intro h
      have h1 := congrArg Prod.fst h
      have h2 := congrArg Prod.snd h
      simp only at h1 h2
      first
        | exact absurd (inj _ _ hil hjl h1) (by omega)
        | exact absurd (inj _ _ hil hjl h2) (by omega)
    · intro h
      have h1 := congrArg Prod.fst h
      have h2 := congrArg Prod.snd h
      simp only [Prod.fst_swap, Prod.snd_swap] at h1 h2
      first
        | exact hwrap ⟨inj _ _ hil hmj h1, inj _ _ hmi hjl h2⟩
        | exact hwrap ⟨inj _ _ hil hmj h2, inj _ _ hmi hjl h1⟩

theorem level_faces {E : List Ent} {flip : Bool} (hok : ∀ e ∈ E, e.Ok m v) (hn : E.Nodup)
    (hf : ∀ e ∈ E, e.isFace) :
    levelConns ((m.vCells v).length + (m.vBnd v).length) (m.vCells v).length flip
      (rowOf (E.map (Ent.num m v))) = [] := by
  rw [List.eq_nil_iff_forall_not_mem]
  intro p hp
  obtain ⟨i, e, e', he, he', h, _⟩ := (mem_level hok hn p).1 hp
  exact h ⟨hf e (List.mem_of_getElem? he), hf e' (List.mem_of_getElem? he')⟩

theorem cross_pairwise {E0 E1 : List Ent} (h0 : ∀ e ∈ E0, e.Ok m v) (h1 : ∀ e ∈ E1, e.Ok m v)
    (hn0 : E0.Nodup) (hdis : ∀ e ∈ E0, e ∉ E1) :
    (crossConns ((m.vCells v).length + (m.vBnd v).length) (m.vCells v).length
      (rowOf (E0.map (Ent.num m v))) (rowOf (E1.map (Ent.num m v)))).Pairwise UDiff := by
  rw [crossConns_eq (by simpa using length_le_room hn0 h0), List.pairwise_filterMap]
  refine List.pairwise_lt_range.imp_of_mem ?_
  intro i j hi hj hij p hp q hq
  have hil : i < min E0.length E1.length := by simpa using hi
  have hjl : j < min E0.length E1.length := by simpa using hj
  have a0 : E0[i]? = some (E0[i]'(by omega)) := List.getElem?_eq_getElem _
  have a1 : E1[i]? = some (E1[i]'(by omega)) := List.getElem?_eq_getElem _
  have b0 : E0[j]? = some (E0[j]'(by omega)) := List.getElem?_eq_getElem _
  have b1 : E1[j]? = some (E1[j]'(by omega)) := List.getElem?_eq_getElem _
  unfold crossPair at hp hq
  rw [getD_num a0, getD_num a1] at hp
  rw [getD_num b0, getD_num b1] at hq
  have n0 : (((E0[i]'(by omega)).num m v : Nat) : ℤ) ≠ (((E0[j]'(by omega)).num m v : Nat) : ℤ) := by
    intro h
    have h' : (E0[i]'(by omega)).num m v = (E0[j]'(by omega)).num m v := by exact_mod_cast h
    have := num_inj (h0 _ (List.getElem_mem _)) (h0 _ (List.getElem_mem _)) h'
    have := (List.Nodup.getElem_inj_iff hn0).1 this
    omega
  have n1 : (((E0[i]'(by omega)).num m v : Nat) : ℤ) ≠ (((E1[j]'(by omega)).num m v : Nat) : ℤ) := by
    intro h
    have h' : (E0[i]'(by omega)).num m v = (E1[j]'(by omega)).num m v := by exact_mod_cast h
    have := num_inj (h0 _ (List.getElem_mem _)) (h1 _ (List.getElem_mem _)) h'
    exact hdis _ (List.getElem_mem (by omega : i < E0.length)) (by rw [this]; exact List.getElem_mem _)
  split_ifs at hp hq
  all_goals
    have hp' := (Option.some.inj hp).symm
    have hq' := (Option.some.inj hq).symm
    subst hp' hq'
    refine ⟨?_, ?_⟩ <;> intro h <;>
      have h1 := congrArg Prod.fst h <;>
      have h2 := congrArg Prod.snd h <;>
      simp only [Prod.fst_swap, Prod.snd_swap] at h1 h2 <;>
      first
        | exact n0 h1
        | exact n0 h2
        | exact n1 h1
        | exact n1 h2

/-- All connections before the rearrangement. -/
def allConns (m : TMesh) (v : Nat) (t0 t1 : Nat → ℤ) : List (ℤ × ℤ) :=
  levelConns ((m.vCells v).length + (m.vBnd v).length) (m.vCells v).length false t0
    ++ levelConns ((m.vCells v).length + (m.vBnd v).length) (m.vCells v).length true t1
    ++ crossConns ((m.vCells v).length + (m.vBnd v).length) (m.vCells v).length t0 t1

theorem connections_eq (t0 t1 : Nat → ℤ) (h : (allConns m v t0 t1).length ≤ m.maxVertexFaces) :
    connections m v t0 t1 = .ok ((allConns m v t0 t1).filter (isCellPair (m.vCells v).length)
      ++ (allConns m v t0 t1).filter fun p => !isCellPair (m.vCells v).length p) := by
  unfold connections
  exact if_neg (Nat.not_lt.2 h)

/-- Two rows that between them hold a vertex: what is needed of them. -/
structure Rows2 (m : TMesh) (v : Nat) (E0 E1 : List Ent) : Prop where
  ok0 : ∀ e ∈ E0, e.Ok m v
  ok1 : ∀ e ∈ E1, e.Ok m v
  nodup0 : E0.Nodup
  nodup1 : E1.Nodup
  disj : ∀ e ∈ E0, e ∉ E1
  len0 : 3 ≤ E0.length ∨ ∀ e ∈ E0, e.isFace
  len1 : 3 ≤ E1.length ∨ ∀ e ∈ E1, e.isFace
  sound0 : ∀ (i : Nat) (e e' : Ent), E0[i]? = some e → E0[(i + 1) % E0.length]? = some e' →
    ¬ (e.isFace ∧ e'.isFace) → ∃ x ∈ m.vFaces v, JoinsE m x e e'
  sound1 : ∀ (i : Nat) (e e' : Ent), E1[i]? = some e → E1[(i + 1) % E1.length]? = some e' →
    ¬ (e.isFace ∧ e'.isFace) → ∃ x ∈ m.vFaces v, JoinsE m x e e'
  soundX : ∀ (i : Nat) (e e' : Ent), E0[i]? = some e → E1[i]? = some e' →
    ¬ (e.isFace ∧ e'.isFace) → ∃ x ∈ m.vFaces v, JoinsE m x e e'
  complete : ∀ x ∈ m.vFaces v,
    (∃ (i : Nat) (e e' : Ent), E0[i]? = some e ∧ E0[(i + 1) % E0.length]? = some e' ∧ JoinsE m x e e') ∨
    (∃ (i : Nat) (e e' : Ent), E1[i]? = some e ∧ E1[(i + 1) % E1.length]? = some e' ∧ JoinsE m x e e') ∨
    (∃ (i : Nat) (e e' : Ent), E0[i]? = some e ∧ E1[i]? = some e' ∧ JoinsE m x e e')

theorem JoinsE.notFaces {x : Nat} {e e' : Ent} (h : JoinsE m x e e') :
    ¬ (e.isFace ∧ e'.isFace) := by
  rcases h with ⟨c, d, _, _, _, rfl, rfl⟩ | ⟨_, c, _, ⟨rfl, rfl⟩ | ⟨rfl, rfl⟩⟩ <;>
    simp [Ent.isFace]

theorem rows_sound {E0 E1 : List Ent} (h : Rows2 m v E0 E1) (p : ℤ × ℤ)
    (hp : p ∈ allConns m v (rowOf (E0.map (Ent.num m v))) (rowOf (E1.map (Ent.num m v)))) :
    ∃ x ∈ m.vFaces v, Joins m v x p := by
  unfold allConns at hp
  rw [List.mem_append, List.mem_append, mem_level h.ok0 h.nodup0, mem_level h.ok1 h.nodup1,
    mem_cross h.ok0 h.ok1 h.nodup0] at hp
  rcases hp with (⟨i, e, e', he, he', hf, rfl⟩ | ⟨i, e, e', he, he', hf, rfl⟩) |
    ⟨i, e, e', he, he', hf, rfl⟩
  · obtain ⟨x, hx, hj⟩ := h.sound0 i e e' he he' hf
    exact ⟨x, hx, joins_of_E hj⟩
  · obtain ⟨x, hx, hj⟩ := h.sound1 i e e' he he' hf
    exact ⟨x, hx, joins_of_E hj.symm⟩
  · obtain ⟨x, hx, hj⟩ := h.soundX i e e' he he' hf
    refine ⟨x, hx, ?_⟩
    split_ifs
    · exact joins_of_E hj
    · exact joins_of_E hj.symm

theorem rows_complete {E0 E1 : List Ent} (h : Rows2 m v E0 E1) {x : Nat} (hx : x ∈ m.vFaces v) :
    ∃ p ∈ allConns m v (rowOf (E0.map (Ent.num m v))) (rowOf (E1.map (Ent.num m v))),
      Joins m v x p := by
  rcases h.complete x hx with ⟨i, e, e', he, he', hj⟩ | ⟨i, e, e', he, he', hj⟩ |
    ⟨i, e, e', he, he', hj⟩
  · refine ⟨_, List.mem_append_left _ (List.mem_append_left _
      ((mem_level h.ok0 h.nodup0 _).2 ⟨i, e, e', he, he', hj.notFaces, rfl⟩)), ?_⟩
    exact joins_of_E hj
  · refine ⟨_, List.mem_append_left _ (List.mem_append_right _
      ((mem_level h.ok1 h.nodup1 _).2 ⟨i, e, e', he, he', hj.notFaces, rfl⟩)), ?_⟩
    exact joins_of_E hj.symm
  · refine ⟨_, List.mem_append_right _
      ((mem_cross h.ok0 h.ok1 h.nodup0 _).2 ⟨i, e, e', he, he', hj.notFaces, rfl⟩), ?_⟩
    split_ifs
    · exact joins_of_E hj
    · exact joins_of_E hj.symm

theorem num_ne {E0 E1 : List Ent} (h : Rows2 m v E0 E1) {e e' : Ent} (he : e ∈ E0) (he' : e' ∈ E1) :
    ((e.num m v : Nat) : ℤ) ≠ ((e'.num m v : Nat) : ℤ) := by
  intro hh
  have h' : e.num m v = e'.num m v := by exact_mod_cast hh
  have := num_inj (h.ok0 e he) (h.ok1 e' he') h'
  subst this
  exact h.disj e he he'

theorem rows_pairwise {E0 E1 : List Ent} (h : Rows2 m v E0 E1) :
    (allConns m v (rowOf (E0.map (Ent.num m v))) (rowOf (E1.map (Ent.num m v)))).Pairwise UDiff := by
  have p0 : (levelConns ((m.vCells v).length + (m.vBnd v).length) (m.vCells v).length false
      (rowOf (E0.map (Ent.num m v)))).Pairwise UDiff := by
    rcases h.len0 with h3 | hf
    · exact level_pairwise h.ok0 h.nodup0 h3
    · rw [level_faces h.ok0 h.nodup0 hf]; exact List.Pairwise.nil
  have p1 : (levelConns ((m.vCells v).length + (m.vBnd v).length) (m.vCells v).length true
      (rowOf (E1.map (Ent.num m v)))).Pairwise UDiff := by
    rcases h.len1 with h3 | hf
    · exact level_pairwise h.ok1 h.nodup1 h3
    · rw [level_faces h.ok1 h.nodup1 hf]; exact List.Pairwise.nil
  unfold allConns
  rw [List.pairwise_append, List.pairwise_append]
  refine ⟨⟨p0, p1, ?_⟩, cross_pairwise h.ok0 h.ok1 h.nodup0 h.disj, ?_⟩
  · intro p hp q hq
    obtain ⟨i, e, e', he, he', _, rfl⟩ := (mem_level h.ok0 h.nodup0 p).1 hp
    obtain ⟨j, g, g', hg, hg', _, rfl⟩ := (mem_level h.ok1 h.nodup1 q).1 hq
    have n1 := num_ne h (List.mem_of_getElem? he) (List.mem_of_getElem? hg)
    have n2 := num_ne h (List.mem_of_getElem? he) (List.mem_of_getElem? hg')
    refine ⟨?_, ?_⟩ <;> intro hh <;> have h1 := congrArg Prod.fst hh <;> simp at h1
    · exact n2 (by exact_mod_cast h1)
    · exact n1 (by exact_mod_cast h1)
  · intro p hp q hq
    obtain ⟨j, g, g', hg, hg', _, hq'⟩ := (mem_cross h.ok0 h.ok1 h.nodup0 q).1 hq
    rw [List.mem_append] at hp
    rcases hp with hp | hp
    · obtain ⟨i, e, e', he, he', _, rfl⟩ := (mem_level h.ok0 h.nodup0 p).1 hp
      have n1 := num_ne h (List.mem_of_getElem? he) (List.mem_of_getElem? hg')
      have n2 := num_ne h (List.mem_of_getElem? he') (List.mem_of_getElem? hg')
      subst hq'
      refine ⟨?_, ?_⟩ <;> intro hh <;> rw [if_neg Bool.false_ne_true] at hh <;>
        split_ifs at hh <;>
        have h1 := congrArg Prod.fst hh <;> have h2 := congrArg Prod.snd hh <;>
        simp only [Prod.swap] at h1 h2 <;>
        first
          | exact n1 h1
          | exact n2 h2
    · obtain ⟨i, e, e', he, he', _, rfl⟩ := (mem_level h.ok1 h.nodup1 p).1 hp
      have n1 := num_ne h (List.mem_of_getElem? hg) (List.mem_of_getElem? he)
      have n2 := num_ne h (List.mem_of_getElem? hg) (List.mem_of_getElem? he')
      subst hq'
      refine ⟨?_, ?_⟩ <;> intro hh <;> split_ifs at hh <;>
        have h1 := congrArg Prod.fst hh <;> have h2 := congrArg Prod.snd hh <;>
        simp only [Prod.swap] at h1 h2 <;>
        first
          | exact n1 h1.symm
          | exact n1 h2.symm
          | exact n2 h1.symm
          | exact n2 h2.symm

/-! ### One connection per face -/

theorem cellNo_inj {c d : Nat} (hc : c ∈ m.vCells v) (hd : d ∈ m.vCells v)
    (h : cellNo m v c = cellNo m v d) : c = d := by
  unfold cellNo at h
  exact idxOf_inj' hc hd (by exact_mod_cast h)

theorem cellNo_lt {c : Nat} (hc : c ∈ m.vCells v) : cellNo m v c < (m.vCells v).length := by
  unfold cellNo
  exact_mod_cast List.idxOf_lt_length_iff.2 hc

theorem faceNo_ge (x : Nat) : ((m.vCells v).length : ℤ) ≤ faceNo m v x := by
  unfold faceNo; omega

theorem faceNo_inj {x y : Nat} (hx : x ∈ m.vBnd v) (hy : y ∈ m.vBnd v)
    (h : faceNo m v x = faceNo m v y) : x = y := by
  unfold faceNo at h
  exact idxOf_inj' hx hy (by omega)

/-- A connection belongs to one face. -/
theorem joins_inj (ha : Around m v) {x y : Nat} (hx : x ∈ m.vFaces v) (hy : y ∈ m.vFaces v)
    {p : ℤ × ℤ} (h : Joins m v x p) (h' : Joins m v y p) : x = y := by
  rcases h with ⟨c, d, hcd, hc, hd, rfl⟩ | ⟨hi, c, hc, hp⟩
  · have mc := side_cell ha hx hc
    have md := side_cell ha hx hd
    rcases h' with ⟨c', d', hcd', hc', hd', he⟩ | ⟨_, c', hc', hp'⟩
    · have e1 := cellNo_inj mc (side_cell ha hy hc') (congrArg Prod.fst he)
      have e2 := cellNo_inj md (side_cell ha hy hd') (congrArg Prod.snd he)
      subst e1 e2
      exact ha.single x hx y hy c d hcd hc hd hc' hd'
    · have l1 := cellNo_lt (m := m) (v := v) mc
      have l2 := cellNo_lt (m := m) (v := v) md
      have l3 := faceNo_ge (m := m) (v := v) y
      rcases hp' with he | he
      · have := congrArg Prod.snd he; simp only at this; omega
      · have := congrArg Prod.fst he; simp only at this; omega
  · have mx := (ha.bnd x).2 ⟨hx, hi⟩
    have mc := side_cell ha hx hc
    have l1 := cellNo_lt (m := m) (v := v) mc
    have l2 := faceNo_ge (m := m) (v := v) x
    rcases h' with ⟨c', d', hcd', hc', hd', he⟩ | ⟨hi', c', hc', hp'⟩
    · have l3 := cellNo_lt (m := m) (v := v) (side_cell ha hy hc')
      have l4 := cellNo_lt (m := m) (v := v) (side_cell ha hy hd')
      rcases hp with hp | hp <;> rw [hp] at he <;>
        have e1 := congrArg Prod.fst he <;> have e2 := congrArg Prod.snd he <;>
        simp only at e1 e2 <;> omega
    · have my := (ha.bnd y).2 ⟨hy, hi'⟩
      have l3 := cellNo_lt (m := m) (v := v) (side_cell ha hy hc')
      have l4 := faceNo_ge (m := m) (v := v) y
      rcases hp with hp | hp <;> rcases hp' with hp' | hp' <;> rw [hp] at hp' <;>
        have e1 := congrArg Prod.fst hp' <;> have e2 := congrArg Prod.snd hp' <;>
        simp only at e1 e2
      · exact faceNo_inj mx my e2
      · omega
      · omega
      · exact faceNo_inj mx my e1

/-- A face has one connection, up to its direction. -/
theorem joins_unique (ha : Around m v) {x : Nat} (hx : x ∈ m.vFaces v) {p q : ℤ × ℤ}
    (h : Joins m v x p) (h' : Joins m v x q) : p = q ∨ p = q.swap := by
  rcases h with ⟨c, d, hcd, hc, hd, rfl⟩ | ⟨hi, c, hc, hp⟩
  · rcases h' with ⟨c', d', hcd', hc', hd', rfl⟩ | ⟨hi', c', hc', hp'⟩
    · -- the two cells of an internal face
      have hint := internal_of_sides ha hx hcd hc hd
      obtain ⟨a, _, b, _, _, hf⟩ := ha.internal x hx hint
      unfold Side at hc hd hc' hd'
      rw [hf] at hc hd hc' hd'
      simp only [Nat.cast_inj] at hc hd hc' hd'
      by_cases h1 : c = c'
      · left
        subst h1
        have : d = d' := by
          rcases hc with e | e <;> rcases hd with g | g <;> rcases hd' with k | k <;> omega
        rw [this]
      · right
        have e1 : c = d' := by
          rcases hc with e | e <;> rcases hd' with g | g <;> rcases hc' with k | k <;> omega
        have e2 : d = c' := by
          rcases hd with e | e <;> rcases hc' with g | g <;> rcases hc with k | k <;> omega
        rw [e1, e2]; rfl
    · exact absurd (bnd_side ha ((ha.bnd x).2 ⟨hx, hi'⟩) hc hd) hcd
  · have mx := (ha.bnd x).2 ⟨hx, hi⟩
    rcases h' with ⟨c', d', hcd', hc', hd', rfl⟩ | ⟨hi', c', hc', hp'⟩
    · exact absurd (bnd_side ha mx hc' hd') hcd'
    · have : c = c' := bnd_side ha mx hc hc'
      subst this
      rcases hp with rfl | rfl <;> rcases hp' with rfl | rfl <;> simp

theorem length_le_faces (ha : Around m v) {l : List (ℤ × ℤ)} (hs : ∀ p ∈ l, ∃ x ∈ m.vFaces v, Joins m v x p)
    (hp : l.Pairwise UDiff) : l.length ≤ (m.vFaces v).length := by
  classical
  have hch : ∀ p : ℤ × ℤ, ∃ x, p ∈ l → x ∈ m.vFaces v ∧ Joins m v x p := by
    intro p
    by_cases h : p ∈ l
    · obtain ⟨x, hx, hj⟩ := hs p h
      exact ⟨x, fun _ => ⟨hx, hj⟩⟩
    · exact ⟨0, fun h' => absurd h' h⟩
  choose φ hφ using hch
  have hn : (l.map φ).Nodup := by
    rw [List.Nodup, List.pairwise_map]
    refine hp.imp_of_mem ?_
    intro p q hp' hq' hd e
    obtain ⟨h1, h2⟩ := hφ p hp'
    obtain ⟨h3, h4⟩ := hφ q hq'
    rw [← e] at h4
    rcases joins_unique ha h1 h2 h4 with h | h
    · exact hd.1 h
    · exact hd.2 h
  have hsub : l.map φ ⊆ m.vFaces v := by
    intro x hx
    obtain ⟨p, hp', rfl⟩ := List.mem_map.1 hx
    exact (hφ p hp').1
  have := (List.subperm_of_subset hn hsub).length_le
  simpa using this

end TDy.Traverse.Proofs
