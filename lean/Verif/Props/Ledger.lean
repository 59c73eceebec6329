import Verif.Model.Ledger
import Verif.Spec.Ledger

/-!
# C175, C176: what `TDyDestroy` gives back
-/

namespace TDy.Ledger.Props

open TDy.Ledger TDy.Ledger.Spec

/-- What the ledger shows after a sequence of accepted calls: `n` calls of `TDySetFromOptions`, `m` of
`TDySetup`, `v`, `j` and `t` of the three creations. -/
structure Inv (c : Cfg) (n m v j t : Nat) (s : St) : Prop where
  fixed : ∀ k, k = .header ∨ k = .ops ∨ k = .io ∨ k = .disc ∨ k = .tdydm ∨ k = .ugdm ∨ k = .ugrid →
    s.live k = 1 ∧ s.held k = true
  each : ∀ k, k = .conditions ∨ k = .context ∨ k = .matprop ∨ k = .curves →
    s.live k = n ∧ s.held k = decide (0 < n)
  dm : s.live .dm = (if c.pflotran then n else min n 1) ∧ s.held .dm = decide (0 < n)
  parts : s.live .ugdmParts = (if c.pflotran then n else 0)
  localOrder : s.live .localOrder = (if c.pflotran then 2 * n else 0)
  vectors : s.live .vectors = min v 1 ∧ s.held .vectors = decide (0 < v)
  jacobian : s.live .jacobian = min j 1 ∧ s.held .jacobian = decide (0 < j)
  integrator : s.live .integrator = t ∧ s.held .integrator = decide (0 < t)
  diag : s.live .diagnostics = (if hasDiagnostics c then m else 0) ∧
    s.held .diagnostics = (hasDiagnostics c && decide (0 < m))
  regression : s.live .regression = (if c.regression then m else 0) ∧
    s.held .regression = (c.regression && decide (0 < m))
  finished : s.setupFinished = decide (0 < m)

theorem inv_create (c : Cfg) : Inv c 0 0 0 0 0 create := by
  constructor <;> simp [create, acquire, empty]

/-- The state `TDySetFromOptions` leaves. -/
def afterOptions (c : Cfg) (s : St) : St :=
  acquire .curves (acquire .matprop (createMesh c
    { acquire .context (acquire .conditions s) with optionsSet := true }))

theorem live_mesh (c : Cfg) (s : St) (k : Kind) : (createMesh c s).live k =
    s.live k + match k with
    | .dm => if c.pflotran then 1 else if s.held .dm then 0 else 1
    | .ugdmParts => if c.pflotran then 1 else 0
    | .localOrder => if c.pflotran then 2 else 0
    | _ => 0 := by
  unfold createMesh
  cases c.pflotran <;> cases hd : s.held .dm <;> cases k <;> simp [acquire, ugdmCreate]

theorem held_mesh (c : Cfg) (s : St) (k : Kind) (h1 : k ≠ .ugdmParts) (h2 : k ≠ .localOrder) :
    (createMesh c s).held k = if k = .dm then true else s.held k := by
  unfold createMesh
  cases c.pflotran <;> cases hd : s.held .dm <;> by_cases hk : k = .dm <;>
    simp_all [acquire, ugdmCreate]

theorem finished_mesh (c : Cfg) (s : St) : (createMesh c s).setupFinished = s.setupFinished := by
  unfold createMesh
  cases c.pflotran <;> cases hd : s.held .dm <;> simp [acquire, ugdmCreate]

theorem live_options (c : Cfg) (s : St) (k : Kind) : (afterOptions c s).live k =
    s.live k + match k with
      | .conditions | .context | .matprop | .curves => 1
      | .dm => if c.pflotran then 1 else if s.held .dm then 0 else 1
      | .ugdmParts => if c.pflotran then 1 else 0
      | .localOrder => if c.pflotran then 2 else 0
      | _ => 0 := by
  cases k <;> simp [afterOptions, acquire, live_mesh]

theorem held_options (c : Cfg) (s : St) (k : Kind) (h1 : k ≠ .ugdmParts) (h2 : k ≠ .localOrder) :
    (afterOptions c s).held k =
      if k = .conditions ∨ k = .context ∨ k = .matprop ∨ k = .curves ∨ k = .dm then true
      else s.held k := by
  unfold afterOptions
  simp only [acquire]
  rw [held_mesh _ _ _ h1 h2]
  cases k <;> simp

theorem inv_setFromOptions {c : Cfg} {n m v j t : Nat} {s s' : St} (h : Inv c n m v j t s)
    (e : setFromOptions c s = some s') : Inv c (n + 1) m v j t s' := by
  have he : s' = afterOptions c s := by
    unfold setFromOptions at e
    split at e
    · exact absurd e (by simp)
    · simp only [Option.some.injEq] at e
      exact e.symm
  subst he
  have hl := live_options c s
  have hh := held_options c s
  have hfin : (afterOptions c s).setupFinished = s.setupFinished := by
    simp [afterOptions, acquire, finished_mesh]
  obtain ⟨h1, h2, h3, h4, h5, h6, h7, h8, h9, h10, h11⟩ := h
  refine ⟨?_, ?_, ?_, ?_, ?_, ?_, ?_, ?_, ?_, ?_, ?_⟩
  · intro k hk
    have := h1 k hk
    rcases hk with rfl | rfl | rfl | rfl | rfl | rfl | rfl <;> rw [hl, hh _ (by simp) (by simp)] <;>
      simpa using this
  · intro k hk
    have := h2 k hk
    rcases hk with rfl | rfl | rfl | rfl <;> rw [hl, hh _ (by simp) (by simp)] <;>
      simp [this.1]
  · rw [hl, hh _ (by simp) (by simp)]
    simp only [h3.1, h3.2]
    refine ⟨?_, by simp⟩
    cases c.pflotran <;> by_cases hn : 0 < n <;> simp [hn] <;> omega
  · rw [hl]; simp only [h4]; cases c.pflotran <;> simp
  · rw [hl]; simp only [h5]; cases c.pflotran <;> simp; omega
  · rw [hl, hh _ (by simp) (by simp)]; simpa using h6
  · rw [hl, hh _ (by simp) (by simp)]; simpa using h7
  · rw [hl, hh _ (by simp) (by simp)]; simpa using h8
  · rw [hl, hh _ (by simp) (by simp)]; simpa using h9
  · rw [hl, hh _ (by simp) (by simp)]; simpa using h10
  · rw [hfin]; exact h11

theorem inv_setup {c : Cfg} {n m v j t : Nat} {s s' : St} (h : Inv c n m v j t s)
    (e : setup c s = some s') : Inv c n (m + 1) v j t s' := by
  obtain ⟨h1, h2, h3, h4, h5, h6, h7, h8, h9, h10, h11⟩ := h
  unfold setup at e
  split at e
  · simp only [Option.some.injEq] at e
    subst e
    simp only [forall_eq_or_imp, forall_eq] at h1 h2
    obtain ⟨a1, a2, a3, a4, a5, a6, a7⟩ := h1
    obtain ⟨b1, b2, b3, b4⟩ := h2
    by_cases hd : hasDiagnostics c = true <;> by_cases hr : c.regression = true <;>
      constructor <;>
      simp_all [acquire]
  · exact absurd e (by simp)

theorem inv_vectors {c : Cfg} {n m v j t : Nat} {s : St} (h : Inv c n m v j t s) :
    Inv c n m (v + 1) j t (createVectors s) := by
  obtain ⟨h1, h2, h3, h4, h5, h6, h7, h8, h9, h10, h11⟩ := h
  simp only [forall_eq_or_imp, forall_eq] at h1 h2
  obtain ⟨a1, a2, a3, a4, a5, a6, a7⟩ := h1
  obtain ⟨b1, b2, b3, b4⟩ := h2
  by_cases hv : 0 < v <;> constructor <;> simp_all [createVectors, acquire] <;> omega

theorem inv_jacobian {c : Cfg} {n m v j t : Nat} {s : St} (h : Inv c n m v j t s) :
    Inv c n m v (j + 1) t (createJacobian s) := by
  obtain ⟨h1, h2, h3, h4, h5, h6, h7, h8, h9, h10, h11⟩ := h
  simp only [forall_eq_or_imp, forall_eq] at h1 h2
  obtain ⟨a1, a2, a3, a4, a5, a6, a7⟩ := h1
  obtain ⟨b1, b2, b3, b4⟩ := h2
  by_cases hv : 0 < j <;> constructor <;> simp_all [createJacobian, acquire] <;> omega

theorem inv_integrator {c : Cfg} {n m v j t : Nat} {s : St} (h : Inv c n m v j t s) :
    Inv c n m v j (t + 1) (createIntegrator s) := by
  obtain ⟨h1, h2, h3, h4, h5, h6, h7, h8, h9, h10, h11⟩ := h
  simp only [forall_eq_or_imp, forall_eq] at h1 h2
  obtain ⟨a1, a2, a3, a4, a5, a6, a7⟩ := h1
  obtain ⟨b1, b2, b3, b4⟩ := h2
  constructor <;> simp_all [createIntegrator, acquire]

theorem inv_run (c : Cfg) (h : List Call) : ∀ (n m v j t : Nat) (s s' : St),
    Inv c n m v j t s → run c s h = some s' →
    Inv c (n + h.count .setFromOptions) (m + h.count .setup) (v + h.count .createVectors)
      (j + h.count .createJacobian) (t + h.count .createIntegrator) s' := by
  induction h with
  | nil =>
    intro n m v j t s s' hi hr
    simp only [run, Option.some.injEq] at hr
    subst hr
    simpa using hi
  | cons e h ih =>
    intro n m v j t s s' hi hr
    cases e with
    | setFromOptions =>
      simp only [run, step] at hr
      cases hs : setFromOptions c s with
      | none => rw [hs] at hr; exact absurd hr (by simp)
      | some s1 =>
        rw [hs] at hr
        have := ih _ _ _ _ _ _ _ (inv_setFromOptions hi hs) hr
        simpa [List.count_cons, Nat.add_assoc, Nat.add_comm, Nat.add_left_comm] using this
    | setup =>
      simp only [run, step] at hr
      cases hs : setup c s with
      | none => rw [hs] at hr; exact absurd hr (by simp)
      | some s1 =>
        rw [hs] at hr
        have := ih _ _ _ _ _ _ _ (inv_setup hi hs) hr
        simpa [List.count_cons, Nat.add_assoc, Nat.add_comm, Nat.add_left_comm] using this
    | createVectors =>
      simp only [run, step] at hr
      have := ih _ _ _ _ _ _ _ (inv_vectors hi) hr
      simpa [List.count_cons, Nat.add_assoc, Nat.add_comm, Nat.add_left_comm] using this
    | createJacobian =>
      simp only [run, step] at hr
      have := ih _ _ _ _ _ _ _ (inv_jacobian hi) hr
      simpa [List.count_cons, Nat.add_assoc, Nat.add_comm, Nat.add_left_comm] using this
    | createIntegrator =>
      simp only [run, step] at hr
      have := ih _ _ _ _ _ _ _ (inv_integrator hi) hr
      simpa [List.count_cons, Nat.add_assoc, Nat.add_comm, Nat.add_left_comm] using this

theorem live_release_other {k l : Kind} (h : l ≠ k) (s : St) : (release k s).live l = s.live l := by
  unfold release; split <;> simp [h]

theorem held_release_other {k l : Kind} (h : l ≠ k) (s : St) : (release k s).held l = s.held l := by
  unfold release; split <;> simp [h]

theorem finished_release (k : Kind) (s : St) : (release k s).setupFinished = s.setupFinished := by
  unfold release; split <;> rfl

theorem live_release_same (k : Kind) (s : St) :
    (release k s).live k = s.live k - (if s.held k then 1 else 0) := by
  unfold release; split <;> simp_all

theorem live_context (c : Cfg) (s : St) (k : Kind) : (destroyContext c s).live k =
    if c.family = .mpfao then (release .context s).live k else s.live k := by
  unfold destroyContext; split <;> rfl

theorem held_context (c : Cfg) (s : St) (k : Kind) : (destroyContext c s).held k =
    if c.family = .mpfao then (release .context s).held k else s.held k := by
  unfold destroyContext; split <;> rfl

theorem finished_context (c : Cfg) (s : St) :
    (destroyContext c s).setupFinished = s.setupFinished := by
  unfold destroyContext; split
  · exact finished_release _ _
  · rfl

theorem live_diag (c : Cfg) (s : St) (k : Kind) : (destroyDiagnostics c s).live k =
    if hasDiagnostics c && s.setupFinished then (release .diagnostics s).live k else s.live k := by
  unfold destroyDiagnostics; split <;> rfl

theorem held_diag (c : Cfg) (s : St) (k : Kind) : (destroyDiagnostics c s).held k =
    if hasDiagnostics c && s.setupFinished then (release .diagnostics s).held k else s.held k := by
  unfold destroyDiagnostics; split <;> rfl

/-- What is live after `TDyDestroy`, kind by kind. -/
theorem live_destroy (c : Cfg) (s : St) (k : Kind) : (destroy c s).live k =
    match k with
    | .ops | .disc | .tdydm | .ugdm | .ugrid | .ugdmParts | .localOrder => s.live k
    | .context => if c.family = .mpfao then s.live k - (if s.held k then 1 else 0) else s.live k
    | .diagnostics => if hasDiagnostics c && s.setupFinished then
        s.live k - (if s.held k then 1 else 0) else s.live k
    | _ => s.live k - (if s.held k then 1 else 0) := by
  unfold destroy
  cases k <;>
    simp [live_release_other, held_release_other, live_release_same, live_context, held_context,
      live_diag, held_diag, finished_release, finished_context]

theorem sub_held (n : Nat) : n - (if decide (0 < n) = true then 1 else 0) = n - 1 := by
  by_cases h : 0 < n <;> simp [h]
  omega

theorem min_held (n : Nat) : min n 1 - (if decide (0 < n) = true then 1 else 0) = 0 := by
  by_cases h : 0 < n <;> simp [h]
  · omega
  · omega

/-- Which of the two calls that are refused have been accepted before. -/
theorem flags_step {c : Cfg} {s s' : St} {e : Call} (h : step c s e = some s') :
    s'.optionsSet = (s.optionsSet || decide (e = .setFromOptions)) ∧
      s'.setupFinished = (s.setupFinished || decide (e = .setup)) := by
  have mesh : ∀ t : St, (createMesh c t).optionsSet = t.optionsSet := by
    intro t
    unfold createMesh
    cases c.pflotran <;> cases hd : t.held .dm <;> simp [acquire, ugdmCreate]
  cases e with
  | setFromOptions =>
    simp only [step, setFromOptions] at h
    split at h
    · exact absurd h (by simp)
    · simp only [Option.some.injEq] at h
      subst h
      simp only [acquire]
      rw [mesh, finished_mesh]
      simp
  | setup =>
    simp only [step, setup] at h
    split at h
    · simp only [Option.some.injEq] at h
      subst h
      cases hasDiagnostics c <;> cases c.regression <;> simp [acquire]
    · exact absurd h (by simp)
  | createVectors =>
    simp only [step, createVectors, Option.some.injEq] at h
    subst h
    split <;> simp [acquire]
  | createJacobian =>
    simp only [step, createJacobian, Option.some.injEq] at h
    subst h
    split <;> simp [acquire]
  | createIntegrator =>
    simp only [step, createIntegrator, Option.some.injEq] at h
    subst h
    simp [acquire]

theorem accepted (c : Cfg) (h : List Call) : ∀ s : St, (run c s h).isSome = true ↔
    (∀ a b, h = a ++ .setup :: b → s.optionsSet = true ∨ .setFromOptions ∈ a) ∧
      ∀ a b, h = a ++ .setFromOptions :: b → s.setupFinished = false ∧ .setup ∉ a := by
  induction h with
  | nil => intro s; simp [run]
  | cons e h ih =>
    intro s
    have tail : ∀ s', step c s e = some s' → ((run c s (e :: h)).isSome = true ↔
        (∀ a b, h = a ++ .setup :: b → s'.optionsSet = true ∨ .setFromOptions ∈ a) ∧
        ∀ a b, h = a ++ .setFromOptions :: b → s'.setupFinished = false ∧ .setup ∉ a) := by
      intro s' hs
      rw [← ih s']
      simp only [run, hs]
    cases hs : step c s e with
    | none =>
      have : run c s (e :: h) = none := by simp only [run, hs]
      rw [this]
      refine ⟨fun h => by simp at h, fun ⟨k1, k2⟩ => ?_⟩
      cases e with
      | setFromOptions =>
        have := (k2 [] h rfl).1
        simp [step, setFromOptions, this] at hs
      | setup =>
        have := k1 [] h rfl
        simp at this
        simp [step, setup, this] at hs
      | createVectors => simp [step] at hs
      | createJacobian => simp [step] at hs
      | createIntegrator => simp [step] at hs
    | some s' =>
      rw [tail s' hs]
      obtain ⟨f1, f2⟩ := flags_step hs
      rw [f1, f2]
      constructor
      · rintro ⟨k1, k2⟩
        refine ⟨fun a b e1 => ?_, fun a b e1 => ?_⟩
        · cases a with
          | nil =>
            simp only [List.nil_append, List.cons.injEq] at e1
            obtain ⟨rfl, rfl⟩ := e1
            left
            simp only [step, setup] at hs
            by_contra hn
            simp [hn] at hs
          | cons x a =>
            simp only [List.cons_append, List.cons.injEq] at e1
            obtain ⟨rfl, rfl⟩ := e1
            rcases k1 a b rfl with k | k
            · simp only [Bool.or_eq_true, decide_eq_true_eq] at k
              rcases k with k | rfl
              · exact Or.inl k
              · exact Or.inr List.mem_cons_self
            · exact Or.inr (List.mem_cons_of_mem _ k)
        · cases a with
          | nil =>
            simp only [List.nil_append, List.cons.injEq] at e1
            obtain ⟨rfl, rfl⟩ := e1
            refine ⟨?_, by simp⟩
            simp only [step, setFromOptions] at hs
            by_contra hn
            simp [hn] at hs
          | cons x a =>
            simp only [List.cons_append, List.cons.injEq] at e1
            obtain ⟨rfl, rfl⟩ := e1
            obtain ⟨k, k'⟩ := k2 a b rfl
            simp only [Bool.or_eq_false_iff, decide_eq_false_iff_not] at k
            refine ⟨k.1, fun hm => ?_⟩
            rcases List.mem_cons.1 hm with hm | hm
            · exact k.2 hm.symm
            · exact k' hm
      · rintro ⟨k1, k2⟩
        refine ⟨fun a b e1 => ?_, fun a b e1 => ?_⟩
        · subst e1
          rcases k1 (e :: a) b rfl with k | k
          · left; simp [k]
          · rcases List.mem_cons.1 k with k | k
            · left; simp [← k]
            · exact Or.inr k
        · subst e1
          obtain ⟨k, k'⟩ := k2 (e :: a) b rfl
          refine ⟨?_, fun hm => k' (List.mem_cons_of_mem _ hm)⟩
          have : e ≠ .setup := fun he => k' (by simp [he])
          simp [k, this]

/-- C175: the sequences of calls the other theorems speak of are exactly those in the right order. -/
theorem C175_accepted_iff (c : Cfg) (h : List Call) :
    (∃ s, run c create h = some s) ↔ InOrder h := by
  rw [← Option.isSome_iff_exists, accepted]
  have h1 : create.optionsSet = false := rfl
  have h2 : create.setupFinished = false := rfl
  simp [h1, h2, InOrder]

/-- C175, what is missing: whatever was called in between, five structs that `TDyCreate` allocates are
still live after `TDyDestroy`: the table of functions, the discretization, its DM wrapper, the
data of an unstructured DM and the unstructured grid. -/
theorem C175_structs_left_behind (c : Cfg) (h : List Call) (s : St)
    (hr : run c create h = some s) :
    ∀ k, k = .ops ∨ k = .disc ∨ k = .tdydm ∨ k = .ugdm ∨ k = .ugrid →
      (destroy c s).live k = 1 := by
  have hi := inv_run c h 0 0 0 0 0 create s (inv_create c) hr
  have hf := hi.fixed
  intro k hk
  rw [live_destroy]
  rcases hk with rfl | rfl | rfl | rfl | rfl <;> exact (hf _ (by simp)).1

/-- C175: so no object of any configuration gives back everything. -/
theorem C175_violated (c : Cfg) : ¬ DestroyGivesBack c := by
  intro h
  have h1 := C175_structs_left_behind c [] create rfl .disc (by simp)
  rw [h [] create rfl .disc] at h1
  exact absurd h1 (by decide)

/-- C175, the rest: the object itself, its output, its solution vectors and matrices are given back
after any sequence of accepted calls, and so is all the rest if `TDySetFromOptions`, `TDySetup` and
the creation of the integrator are called at most once each, the method is MPFA-O and the mesh is
not in PFLOTRAN format.  Missing: the five structs above. -/
theorem C175_given_back_partial (c : Cfg) (h : List Call) (s : St)
    (hr : run c create h = some s) :
    (∀ k, k = .header ∨ k = .io ∨ k = .vectors ∨ k = .jacobian → (destroy c s).live k = 0) ∧
    (h.count .setFromOptions ≤ 1 → h.count .setup ≤ 1 → h.count .createIntegrator ≤ 1 →
      c.family = .mpfao → c.pflotran = false →
      ∀ k, k ≠ .ops → k ≠ .disc → k ≠ .tdydm → k ≠ .ugdm → k ≠ .ugrid →
        (destroy c s).live k = 0) := by
  have hi := inv_run c h 0 0 0 0 0 create s (inv_create c) hr
  obtain ⟨h1, h2, h3, h4, h5, h6, h7, h8, h9, h10, h11⟩ := hi
  simp only [forall_eq_or_imp, forall_eq] at h1 h2
  obtain ⟨a1, a2, a3, a4, a5, a6, a7⟩ := h1
  obtain ⟨b1, b2, b3, b4⟩ := h2
  simp only [Nat.zero_add] at b1 b2 b3 b4 h3 h4 h5 h6 h7 h8 h9 h10 h11
  constructor
  · intro k hk
    rw [live_destroy]
    rcases hk with rfl | rfl | rfl | rfl
    · simp [a1]
    · simp [a3]
    · simp only [h6.1, h6.2]; exact min_held _
    · simp only [h7.1, h7.2]; exact min_held _
  · intro c1 c2 c3 hf hp k k1 k2 k3 k4 k5
    rw [hp] at h3 h4 h5
    rw [live_destroy]
    cases k with
    | header => simp [a1]
    | ops => exact absurd rfl k1
    | io => simp [a3]
    | disc => exact absurd rfl k2
    | tdydm => exact absurd rfl k3
    | ugdm => exact absurd rfl k4
    | ugrid => exact absurd rfl k5
    | dm => simp only [h3.1, h3.2]; exact min_held _
    | ugdmParts => simp only [h4]; rfl
    | localOrder => simp only [h5]; rfl
    | conditions => simp only [b1.1, b1.2, sub_held]; omega
    | context => simp only [b2.1, b2.2, sub_held, hf, if_true]; omega
    | matprop => simp only [b3.1, b3.2, sub_held]; omega
    | curves => simp only [b4.1, b4.2, sub_held]; omega
    | vectors => simp only [h6.1, h6.2]; exact min_held _
    | jacobian => simp only [h7.1, h7.2]; exact min_held _
    | integrator => simp only [h8.1, h8.2, sub_held]; omega
    | regression =>
      simp only [h10.1, h10.2]
      cases c.regression
      · rfl
      · simp only [Bool.true_and, if_true, sub_held]; omega
    | diagnostics =>
      simp only [h9.1, h9.2, h11]
      cases hasDiagnostics c
      · rfl
      · simp only [Bool.true_and, if_true, sub_held]
        split
        · omega
        · rename_i hz
          rw [decide_eq_true_eq] at hz
          omega

/-- C175: exactly what further calls lose.  Each call of `TDySetFromOptions` after the first loses
the conditions, the material properties, the curves and (MPFA-O) the context of the one before;
the other methods lose every context.  Each call of `TDySetup` after the first loses the
diagnostics and the regression data, each integrator after the first the one before.  A mesh in
PFLOTRAN format loses a DM for each call after the first, and the index sets of all calls. -/
theorem C175_lost (c : Cfg) (h : List Call) (s : St) (hr : run c create h = some s) :
    (∀ k, k = .conditions ∨ k = .matprop ∨ k = .curves →
      (destroy c s).live k = h.count .setFromOptions - 1) ∧
    (destroy c s).live .context = h.count .setFromOptions -
      (if c.family = .mpfao then 1 else 0) ∧
    (destroy c s).live .integrator = h.count .createIntegrator - 1 ∧
    (c.regression = true → (destroy c s).live .regression = h.count .setup - 1) ∧
    (destroy c s).live .diagnostics =
      (if c.pflotran = false ∧ (c.family = .mpfao ∨ c.family = .fvtpf) then h.count .setup - 1 else 0) ∧
    (c.pflotran = true →
      (destroy c s).live .dm = h.count .setFromOptions - 1 ∧
      (destroy c s).live .ugdmParts = h.count .setFromOptions ∧
      (destroy c s).live .localOrder = 2 * h.count .setFromOptions) := by
  have hi := inv_run c h 0 0 0 0 0 create s (inv_create c) hr
  obtain ⟨h1, h2, h3, h4, h5, h6, h7, h8, h9, h10, h11⟩ := hi
  simp only [forall_eq_or_imp, forall_eq] at h1 h2
  obtain ⟨a1, a2, a3, a4, a5, a6, a7⟩ := h1
  obtain ⟨b1, b2, b3, b4⟩ := h2
  simp only [Nat.zero_add] at b1 b2 b3 b4 h3 h4 h5 h6 h7 h8 h9 h10 h11
  refine ⟨?_, ?_, ?_, ?_, ?_, ?_⟩
  · intro k hk
    rw [live_destroy]
    rcases hk with rfl | rfl | rfl
    · simp only [b1.1, b1.2, sub_held]
    · simp only [b3.1, b3.2, sub_held]
    · simp only [b4.1, b4.2, sub_held]
  · rw [live_destroy]
    simp only [b2.1, b2.2, sub_held]
    split <;> rfl
  · rw [live_destroy]
    simp only [h8.1, h8.2, sub_held]
  · intro hg
    rw [live_destroy]
    simp only [h10.1, h10.2, hg, Bool.true_and, if_true, sub_held]
  · have hg : (c.pflotran = false ∧ (c.family = .mpfao ∨ c.family = .fvtpf)) ↔ hasDiagnostics c = true := by
      simp [hasDiagnostics]
    rw [live_destroy]
    by_cases hd : hasDiagnostics c = true
    · rw [if_pos (hg.2 hd)]
      simp only [h9.1, h9.2, h11, hd, Bool.true_and, if_true, sub_held]
      split
      · rfl
      · rename_i hz
        rw [decide_eq_true_eq] at hz
        omega
    · rw [if_neg fun h => hd (hg.1 h)]
      simp only [h9.1, hd, Bool.false_eq_true, if_false, Bool.false_and]
  · intro hg
    rw [hg] at h3 h4 h5
    refine ⟨?_, ?_, ?_⟩ <;> rw [live_destroy]
    · simp only [h3.1, h3.2, if_true, sub_held]
    · simp only [h4, if_true]
    · simp only [h5, if_true]

namespace LedgerWitness

/-- MPFA-O on a DMPlex, without regression output -/
def cfg : Cfg := ⟨.mpfao, false, false⟩

/-- what the driver calls -/
def driver : List Call := [.setFromOptions, .setup, .createIntegrator, .createVectors, .createJacobian]

end LedgerWitness

open LedgerWitness in
/-- The driver's calls are accepted, so the theorems speak about them. -/
example : (run cfg create driver).isSome = true ∧ driver.count .setFromOptions ≤ 1 ∧
    driver.count .setup ≤ 1 ∧ driver.count .createIntegrator ≤ 1 := by decide

open LedgerWitness in
/-- Options read three times, on a mesh in PFLOTRAN format. -/
example : (run ⟨.fvtpf, true, true⟩ create
    [.setFromOptions, .setFromOptions, .setFromOptions, .setup]).isSome = true := by decide

/-! ### The arrays of the curves -/

theorem slot_run (l : List Nat) : ∀ (m a : Nat),
    Slot.run ⟨m, decide (m ≠ 0), 2 * a + (if m ≠ 0 then 2 else 0)⟩ l =
      ⟨(m :: l).getLast (by simp), decide ((m :: l).getLast (by simp) ≠ 0),
        2 * (a + repeats (m :: l)) + (if (m :: l).getLast (by simp) ≠ 0 then 2 else 0)⟩ := by
  induction l with
  | nil => intro m a; rfl
  | cons n l ih =>
    intro m a
    have hs : Slot.setType n ⟨m, decide (m ≠ 0), 2 * a + (if m ≠ 0 then 2 else 0)⟩ =
        ⟨n, decide (n ≠ 0), 2 * (a + (if m = n ∧ n ≠ 0 then 1 else 0)) +
          (if n ≠ 0 then 2 else 0)⟩ := by
      unfold Slot.setType
      by_cases h1 : m = n <;> by_cases h2 : n = 0 <;> by_cases h3 : m = 0 <;>
        simp_all <;> omega
    simp only [Slot.run, hs, ih n]
    simp only [repeats, List.getLast_cons_cons, Nat.add_assoc]
    rfl

/-- C176: exactly what the curves lose: two arrays for each time the parameters of a type are
set for the same positive number of points as the time before. -/
theorem C176_lost (l : List Nat) :
    ((Slot.new.run l).destroy).arrays = 2 * repeats (l ++ [0]) := by
  have key : ∀ (l : List Nat) (s : Slot), (s.run l).destroy = s.run (l ++ [0]) := by
    intro l
    induction l with
    | nil => intro s; rfl
    | cons n l ih => intro s; simp only [Slot.run, List.cons_append]; exact ih _
  rw [key]
  have h0 : Slot.new = ⟨0, decide ((0 : Nat) ≠ 0), 2 * 0 + (if (0 : Nat) ≠ 0 then 2 else 0)⟩ := by
    simp [Slot.new]
  have hr : repeats (0 :: (l ++ [0])) = repeats (l ++ [0]) := by
    cases l with
    | nil => simp [repeats]
    | cons n l =>
      by_cases h : (0 : Nat) = n
      · subst h; simp [repeats]
      · simp [repeats, h]
  have hl : (0 :: (l ++ [0])).getLast (by simp) = 0 := by
    rw [List.getLast_cons (by simp), List.getLast_append_of_ne_nil _ (by simp)]
    rfl
  rw [h0, slot_run, hr]
  simp only [hl]
  simp

/-- C176, the part that holds: if the number of points changes each time, nothing is lost. -/
theorem C176_given_back_partial (l : List Nat) (h : repeats (l ++ [0]) = 0) :
    ((Slot.new.run l).destroy).arrays = 0 := by
  rw [C176_lost, h]

/-- C176: setting the curves of the same `n > 0` points twice, as two set-ups of the same mesh do,
loses two arrays. -/
theorem C176_violated (n : Nat) (hn : 0 < n) :
    ((Slot.new.run [n, n]).destroy).arrays = 2 := by
  rw [C176_lost]
  have : n ≠ 0 := by omega
  simp [repeats, this]

/-- One set-up of a mesh with five cells, and curves of three and then five points, lose nothing. -/
example : repeats ([5] ++ [0]) = 0 ∧ repeats ([3, 5] ++ [0]) = 0 ∧ repeats ([3, 5, 5] ++ [0]) = 1 := by
  decide

end TDy.Ledger.Props
