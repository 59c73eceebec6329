import Verif.Proofs.Slots

/-!
# C08-C11: callbacks, their contexts, and the layout of material tensors
-/

namespace TDy.Slots.Props

open TDy TDy.Slots TDy.Slots.Spec TDy.Slots.Proofs

/-! ## C08 : the latest setter wins -/

/-- After any sequence of condition setters, evaluating a quantity whose last setter gave a
function calls that function with that setter's context; "has" is true exactly then. -/
theorem C08_conditions_latest_setter_wins (cs : List (SetCall CondKey)) (k : CondKey) :
    let s := runSets Store.create cs
    (∀ c f, lastSet k cs = some c → c.fn = some f →
      has s k = true ∧ conditionsCompute s k = .calls f c.context) ∧
    ((∀ c, lastSet k cs = some c → c.fn = none) → has s k = false) := by
  intro s
  have hs := slot_of_lastSet cs k
  constructor
  · intro c f hc hf
    rw [hc] at hs
    exact ⟨by simp [s, has, hs, hf], by simp [s, conditionsCompute, hs, hf]⟩
  · intro h
    cases hl : lastSet k cs with
    | none => rw [hl] at hs; simp [s, has, hs]
    | some c => rw [hl] at hs; simp [s, has, hs, h c hl]

/-- The same for material properties; a quantity never set, or last set to NULL, is left alone
by evaluation. -/
theorem C08_material_latest_setter_wins (cs : List (SetCall MatKey)) (k : MatKey) :
    let s := runSets Store.create cs
    (∀ c f, lastSet k cs = some c → c.fn = some f →
      has s k = true ∧ materialPropCompute s k = .calls f c.context) ∧
    ((∀ c, lastSet k cs = some c → c.fn = none) →
      has s k = false ∧ materialPropCompute s k = .nothing) := by
  intro s
  have hs := slot_of_lastSet cs k
  constructor
  · intro c f hc hf
    rw [hc] at hs
    exact ⟨by simp [s, has, hs, hf], by simp [s, materialPropCompute, hs, hf]⟩
  · intro h
    cases hl : lastSet k cs with
    | none => rw [hl] at hs; simp [s, has, hs, materialPropCompute]
    | some c => rw [hl] at hs; simp [s, has, hs, h c hl, materialPropCompute]

/-- Evaluating a condition that "has" reports as absent calls through a NULL pointer, so the
callers' test of "has" is necessary. -/
theorem C08_absent_condition_undefined (s : Store CondKey) (k : CondKey) :
    conditionsCompute s k = .ub ↔ has s k = false := by
  unfold conditionsCompute has
  cases (s.slots k).fn <;> simp

/-- A constant condition or scalar property is that constant at every one of the `n` points,
and nothing beyond them is written. -/
theorem C08_constant_at_every_point {α : Type} (value : α) (n : Nat) (f : Nat → α) (i : Nat) :
    constantScalar value n f i = if i < n then value else f i :=
  forN_fill n (fun _ => value) f i

/-- Non-vacuity of C08. -/
example : lastSet CondKey.forcing
    [⟨.forcing, some 1, some 10, none⟩, ⟨.boundaryPressure, some 2, some 11, none⟩,
     ⟨.forcing, some 3, some 12, none⟩] = some ⟨.forcing, some 3, some 12, none⟩ := by decide

/-! ## C09, C10 : contexts are released exactly once -/

/-- Over the life of a material-property record, the destructor calls made are, as a multiset,
exactly the (destructor, context) pairs handed to the setters. -/
theorem C09_released_exactly_once (cs : List (SetCall MatKey)) :
    ((materialPropDestroy (runSets Store.create cs)).released).Perm (owned cs) := by
  rw [matDestroy_released]
  exact conservation matKeys matKeys_all (by decide) cs

/-- When the contexts handed over are distinct, no context is released while a later evaluation
could still use it. -/
theorem C09_not_released_while_in_use (cs : List (SetCall MatKey)) (k : MatKey) (c : SetCall MatKey)
    (x d : Nat) (hn : ((owned cs).map Prod.snd).Nodup) (hc : lastSet k cs = some c)
    (hx : c.context = some x) (hd : c.dtor = some d) :
    x ∉ ((runSets Store.create cs).released).map Prod.snd := by
  have hp := (conservation matKeys matKeys_all (by decide) cs).map Prod.snd
  have hnd := hp.nodup_iff.2 hn
  rw [List.map_append] at hnd
  have hs := slot_of_lastSet cs k
  rw [hc] at hs
  have hmem : x ∈ (pendings (runSets Store.create cs) matKeys).map Prod.snd := by
    rw [List.mem_map]
    refine ⟨(d, x), ?_, rfl⟩
    unfold pendings
    rw [List.mem_filterMap]
    exact ⟨k, matKeys_all k, by rw [hs]; simp [pending, hx, hd]⟩
  intro hin
  exact (List.nodup_append.1 hnd).2.2 x hin x hmem rfl

/-- Distinctness is needed: setting the same context twice releases it while it is in use. -/
theorem C09_same_context_twice (k : MatKey) (x f d : Nat) :
    let s := runSets Store.create [⟨k, some x, some f, some d⟩, ⟨k, some x, some f, some d⟩]
    materialPropCompute s k = .calls f (some x) ∧ (d, x) ∈ s.released := by
  simp [runSets, set, Store.create, materialPropCompute]

/-- Non-vacuity of C09: three contexts, two of them for one quantity. -/
example : let cs : List (SetCall MatKey) := [⟨.porosity, some 1, some 7, some 9⟩,
      ⟨.permeability, some 2, some 7, some 9⟩, ⟨.porosity, some 3, some 7, some 9⟩]
    ((owned cs).map Prod.snd).Nodup ∧
    (materialPropDestroy (runSets Store.create cs)).released = [(9, 1), (9, 3), (9, 2)] := by
  decide

/-- Full statement: as C09.  Missing: contexts of the salinity source and of the boundary
pressure type (see the next theorem). -/
theorem C10_released_exactly_once_partial (cs : List (SetCall CondKey))
    (h : ∀ c ∈ cs, c.key ≠ .salinitySource ∧ c.key ≠ .boundaryPressureType) :
    ((conditionsDestroy (runSets Store.create cs)).released).Perm (owned cs) := by
  rw [condDestroy_released]
  have hc := conservation condKeys condKeys_all (by decide) cs
  have hnone : ∀ k : CondKey, (k = .salinitySource ∨ k = .boundaryPressureType) →
      lastSet k cs = none := by
    intro k hk
    clear hc
    induction cs with
    | nil => rfl
    | cons c cs ih =>
      have h1 := h c List.mem_cons_self
      have h2 := ih (fun c hc => h c (List.mem_cons_of_mem _ hc))
      simp only [lastSet, h2]
      rcases hk with rfl | rfl
      · simp [h1.1]
      · simp [h1.2]
  have : pendings (runSets Store.create cs) condKeys =
      pendings (runSets Store.create cs) condReset := by
    have e : condKeys = condReset ++ [.salinitySource, .boundaryPressureType] := rfl
    rw [e]
    unfold pendings
    rw [List.filterMap_append]
    simp [slot_of_lastSet, hnone, pending]
  rw [← this]
  exact hc

/-- The code violates C10 for the two omitted quantities, for every history: the context in the
slot when the record is destroyed is not released by it. -/
theorem C10_context_leaked (cs : List (SetCall CondKey)) (k : CondKey) (c : SetCall CondKey)
    (x d : Nat) (hk : k = .salinitySource ∨ k = .boundaryPressureType)
    (hn : ((owned cs).map Prod.snd).Nodup) (hc : lastSet k cs = some c)
    (hx : c.context = some x) (hd : c.dtor = some d) :
    (d, x) ∈ owned cs ∧
      x ∉ ((conditionsDestroy (runSets Store.create cs)).released).map Prod.snd := by
  have hcons := conservation condKeys condKeys_all (by decide) cs
  have hs := slot_of_lastSet cs k
  rw [hc] at hs
  have hpend : pending ((runSets Store.create cs).slots k) = some (d, x) := by
    rw [hs]; simp [pending, hx, hd]
  have hmemp : (d, x) ∈ pendings (runSets Store.create cs) condKeys := by
    unfold pendings
    rw [List.mem_filterMap]
    exact ⟨k, condKeys_all k, hpend⟩
  refine ⟨hcons.mem_iff.1 (List.mem_append_right _ hmemp), ?_⟩
  have hnd := (hcons.map Prod.snd).nodup_iff.2 hn
  have e : condKeys = condReset ++ [.salinitySource, .boundaryPressureType] := rfl
  rw [e] at hnd
  unfold pendings at hnd
  rw [List.filterMap_append, ← List.append_assoc, List.map_append] at hnd
  rw [condDestroy_released]
  intro hin
  refine (List.nodup_append.1 hnd).2.2 x hin x ?_ rfl
  rw [List.mem_map]
  refine ⟨(d, x), ?_, rfl⟩
  rw [List.mem_filterMap]
  exact ⟨k, by rcases hk with rfl | rfl <;> simp, hpend⟩

/-- Non-vacuity of C10: a leaked and a released context. -/
example : let cs : List (SetCall CondKey) := [⟨.salinitySource, some 1, some 7, some 9⟩,
      ⟨.forcing, some 2, some 7, some 9⟩]
    ((owned cs).map Prod.snd).Nodup ∧
    (conditionsDestroy (runSets Store.create cs)).released = [(9, 2)] := by
  decide

/-! ## C11 : layout of material tensors -/

/-- Constant isotropic: on a zeroed buffer every one of the `n` tensors is the value times the
identity; without the zeroed buffer the off-diagonal entries are what was there before.
Nothing after the `n` tensors is written. -/
theorem C11_constant_isotropic {α : Type} (dim n : Nat) (value f : Nat → α)
    (i r c : Nat) (hr : r < dim) (hc : c < dim) :
    tensorAt dim (constantIsotropic dim value n f) i r c =
      if i < n ∧ r = c then value 0 else tensorAt dim f i r c :=
  diag_loop dim n (fun _ _ => value 0) f i r c hr hc

/-- Spatial isotropic. -/
theorem C11_isotropic {α : Type} (dim n : Nat) (values f : Nat → α)
    (i r c : Nat) (hr : r < dim) (hc : c < dim) :
    tensorAt dim (isotropic dim values n f) i r c =
      if i < n ∧ r = c then values i else tensorAt dim f i r c :=
  diag_loop dim n (fun i _ => values i) f i r c hr hc

/-- Constant diagonal. -/
theorem C11_constant_diagonal {α : Type} (dim n : Nat) (value f : Nat → α)
    (i r c : Nat) (hr : r < dim) (hc : c < dim) :
    tensorAt dim (constantDiagonal dim value n f) i r c =
      if i < n ∧ r = c then value r else tensorAt dim f i r c :=
  diag_loop dim n (fun _ j => value j) f i r c hr hc

/-- Spatial diagonal: component `r` of the three the user's function gave for point `i`. -/
theorem C11_diagonal {α : Type} (dim n : Nat) (values f : Nat → α)
    (i r c : Nat) (hr : r < dim) (hc : c < dim) :
    tensorAt dim (diagonal dim values n f) i r c =
      if i < n ∧ r = c then values (3*i + r) else tensorAt dim f i r c :=
  diag_loop dim n (fun i j => values (3*i + j)) f i r c hr hc

/-- Constant full tensor: row-major entries, whatever the buffer held. -/
theorem C11_constant_full {α : Type} (dim n : Nat) (value f : Nat → α)
    (i r c : Nat) (hr : r < dim) (hc : c < dim) :
    tensorAt dim (constantFull dim value n f) i r c =
      if i < n then value (r*dim + c) else tensorAt dim f i r c :=
  full_loop dim n value f i r c hr hc

/-- Full statement of C11 for the isotropic and diagonal setters: the off-diagonal entries are
zero for every evaluation buffer.  Proved for zeroed buffers; missing: other buffers, for which
it is false (next theorem). -/
theorem C11_off_diagonal_zero_partial (dim n : Nat) (value values : Nat → ℚ)
    (i r c : Nat) (hr : r < dim) (hc : c < dim) (hrc : r ≠ c) :
    tensorAt dim (constantIsotropic dim value n (fun _ => 0)) i r c = 0 ∧
    tensorAt dim (isotropic dim values n (fun _ => 0)) i r c = 0 ∧
    tensorAt dim (constantDiagonal dim value n (fun _ => 0)) i r c = 0 ∧
    tensorAt dim (diagonal dim values n (fun _ => 0)) i r c = 0 := by
  rw [C11_constant_isotropic dim n _ _ i r c hr hc, C11_isotropic dim n _ _ i r c hr hc,
    C11_constant_diagonal dim n _ _ i r c hr hc, C11_diagonal dim n _ _ i r c hr hc]
  simp [hrc, tensorAt]

/-- Evaluating an isotropic or diagonal property into a buffer that is not zero leaves the old
off-diagonal entries in place, in every dimension and for every number of points. -/
theorem C11_off_diagonal_stale (dim n : Nat) (value f : Nat → ℚ)
    (i r c : Nat) (hr : r < dim) (hc : c < dim) (hrc : r ≠ c) :
    tensorAt dim (constantIsotropic dim value n f) i r c = tensorAt dim f i r c ∧
    tensorAt dim (constantDiagonal dim value n f) i r c = tensorAt dim f i r c := by
  rw [C11_constant_isotropic dim n _ _ i r c hr hc, C11_constant_diagonal dim n _ _ i r c hr hc]
  simp [hrc]

/-- Non-vacuity of C11: two points in three dimensions. -/
example : tensorAt 3 (constantDiagonal 3 (fun j => if j = 2 then (5 : ℚ) else 4) 2 (fun _ => 0))
    1 2 2 = 5 := by
  rw [C11_constant_diagonal 3 2 _ _ 1 2 2 (by decide) (by decide)]; simp

end TDy.Slots.Props
