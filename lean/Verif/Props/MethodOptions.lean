import Verif.Spec.MethodOptions
import Verif.Proofs.Fvtpf
import Mathlib.Tactic.NormNum

/-!
# C162: types of boundary faces of the two-point method; C163: settings of the methods
-/

namespace TDy.Fvtpf.Props

open TDy.Fvtpf TDy.Fvtpf.Spec TDy.Fvtpf.Proofs TDy.Geo

noncomputable section

theorem number_ofInt {z : ℤ} (h : 0 ≤ z ∧ z ≤ 2) : number (Bc.ofInt z) = z := by
  unfold Bc.ofInt
  split
  · rename_i h0; rw [h0]; rfl
  · split
    · rename_i h1; rw [h1]; rfl
    · have : z = 2 := by omega
      rw [this]; rfl

/-- The loop over faces, up to face `n`. -/
theorem loop_ok (c : Ctx) (x : Nat → P3) (t : P3 → ℤ) (bc : Nat → Bc) (n : Nat)
    (h : ∀ i < n, (c.face i).isLocal = true → (c.face i).isInternal = false →
      0 ≤ t (x i) ∧ t (x i) ≤ 2) :
    ∃ bc', forN n (fun i (r : Res (Nat → Bc)) => r.bind fun bc =>
      if (c.face i).isLocal = false ∨ (c.face i).isInternal = true then .ok bc
      else if t (x i) < 0 ∨ t (x i) > 2 then .err bc
      else .ok (wr bc i (Bc.ofInt (t (x i))))) (.ok bc) = .ok bc' ∧
      (∀ i < n, (c.face i).isLocal = true → (c.face i).isInternal = false →
        number (bc' i) = t (x i)) ∧
      (∀ i, ¬ (i < n ∧ (c.face i).isLocal = true ∧ (c.face i).isInternal = false) →
        bc' i = bc i) := by
  induction n with
  | zero => exact ⟨bc, rfl, fun i hi => absurd hi (Nat.not_lt_zero i), fun _ _ => rfl⟩
  | succ n ih =>
    obtain ⟨b, hb, h1, h2⟩ := ih fun i hi => h i (Nat.lt_succ_of_lt hi)
    rw [forN, hb]
    dsimp only [Res.bind]
    by_cases hs : (c.face n).isLocal = false ∨ (c.face n).isInternal = true
    · rw [if_pos hs]
      refine ⟨b, rfl, ?_, ?_⟩
      · intro i hi hl hin
        rcases Nat.lt_succ_iff_lt_or_eq.1 hi with h' | h'
        · exact h1 i h' hl hin
        · subst h'; rcases hs with h' | h' <;> simp_all
      · intro i hi
        exact h2 i fun ⟨a, b⟩ => hi ⟨Nat.lt_succ_of_lt a, b⟩
    · rw [if_neg hs]
      have hl : (c.face n).isLocal = true := by
        cases h' : (c.face n).isLocal <;> simp_all
      have hin : (c.face n).isInternal = false := by
        cases h' : (c.face n).isInternal <;> simp_all
      have hr := h n (Nat.lt_succ_self n) hl hin
      rw [if_neg (by omega)]
      refine ⟨_, rfl, ?_, ?_⟩
      · intro i hi hl' hin'
        by_cases e : i = n
        · subst e; rw [wr_same]; exact number_ofInt hr
        · rw [wr_other _ _ e]; exact h1 i (by omega) hl' hin'
      · intro i hi
        by_cases e : i = n
        · subst e; exact absurd ⟨Nat.lt_succ_self i, hl, hin⟩ hi
        · rw [wr_other _ _ e]
          exact h2 i fun ⟨a, b⟩ => hi ⟨Nat.lt_succ_of_lt a, b⟩

/-- C162.  If the user's function gives a valid type at the centroid of every boundary face, the
set-up succeeds, every boundary face has the type given at its own centroid, and all other faces
are closed. -/
theorem C162_type_of_centroid_partial (c : Ctx) (centroid : Nat → P3) (opt : Option Bc)
    (t : P3 → ℤ) (h : ∀ i, OnBoundary c i → 0 ≤ t (centroid i) ∧ t (centroid i) ≤ 2) :
    ∃ s, setupTypes c centroid opt (some t) = .ok s ∧
      (∀ i, OnBoundary c i → number (s.face i) = t (centroid i)) ∧
      (∀ i, ¬ OnBoundary c i → s.face i = .neumann) ∧
      -- and the residual sees each face with that type and otherwise as it was
      (∀ i, OnBoundary c i → number ((withTypes c s).face i).bc = t (centroid i)) ∧
      ∀ i, { (withTypes c s).face i with bc := (c.face i).bc } = c.face i := by
  obtain ⟨b, hb, h1, h2⟩ := loop_ok c centroid t newTypes c.numFaces
    fun i hi hl hin => h i ⟨hi, hl, hin⟩
  refine ⟨⟨contextType opt, b⟩, ?_, fun i hi => h1 i hi.1 hi.2.1 hi.2.2, fun i hi => h2 i hi,
    fun i hi => h1 i hi.1 hi.2.1 hi.2.2, fun i => rfl⟩
  unfold setupTypes setFaceTypes
  dsimp only
  rw [hb]

theorem loop_err (c : Ctx) (x : Nat → P3) (t : P3 → ℤ) (bc : Nat → Bc) (n : Nat)
    (h : ∃ i < n, (c.face i).isLocal = true ∧ (c.face i).isInternal = false ∧
      ¬ (0 ≤ t (x i) ∧ t (x i) ≤ 2)) :
    ∃ bc', forN n (fun i (r : Res (Nat → Bc)) => r.bind fun bc =>
      if (c.face i).isLocal = false ∨ (c.face i).isInternal = true then .ok bc
      else if t (x i) < 0 ∨ t (x i) > 2 then .err bc
      else .ok (wr bc i (Bc.ofInt (t (x i))))) (.ok bc) = .err bc' := by
  induction n with
  | zero => obtain ⟨i, hi, _⟩ := h; exact absurd hi (Nat.not_lt_zero i)
  | succ n ih =>
    by_cases hp : ∃ i < n, (c.face i).isLocal = true ∧ (c.face i).isInternal = false ∧
        ¬ (0 ≤ t (x i) ∧ t (x i) ≤ 2)
    · obtain ⟨b, hb⟩ := ih hp
      refine ⟨b, ?_⟩
      rw [forN, hb]
      dsimp only [Res.bind]
    · obtain ⟨b, hb, -, -⟩ := loop_ok c x t bc n fun i hi hl hin => by
        by_contra hv; exact hp ⟨i, hi, hl, hin, hv⟩
      obtain ⟨i, hi, hl, hin, hv⟩ := h
      have e : i = n := by
        by_contra e; exact hp ⟨i, by omega, hl, hin, hv⟩
      subst e
      refine ⟨b, ?_⟩
      rw [forN, hb]
      dsimp only [Res.bind]
      rw [if_neg (by simp [hl, hin]), if_pos (by omega)]

/-- C162.  If the function gives something that is not a boundary type at some boundary face, the
set-up fails with an error. -/
theorem C162_other_values_refused (c : Ctx) (centroid : Nat → P3) (opt : Option Bc) (t : P3 → ℤ)
    (i : Nat) (hi : OnBoundary c i) (h : ∀ b : Bc, t (centroid i) ≠ number b) :
    ∃ s, setupTypes c centroid opt (some t) = .err s := by
  have hv : ¬ (0 ≤ t (centroid i) ∧ t (centroid i) ≤ 2) := by
    have h0 := h .dirichlet; have h1 := h .neumann; have h2 := h .seepage
    simp only [number] at h0 h1 h2
    omega
  obtain ⟨b, hb⟩ := loop_err c centroid t newTypes c.numFaces ⟨i, hi.1, hi.2.1, hi.2.2, hv⟩
  refine ⟨⟨contextType opt, b⟩, ?_⟩
  unfold setupTypes setFaceTypes
  dsimp only
  rw [hb]

/-- C162.  Without a type function no water crosses the boundary, whatever boundary pressures the
user gives and whatever type the command line asks for: the residual has no boundary term. -/
theorem C162_without_types_closed (c : Ctx) (centroid : Nat → P3) (opt : Option Bc) :
    ∃ s, setupTypes c centroid opt none = .ok s ∧
      ∀ r, boundaryLoop (withTypes c s) r = some r := by
  refine ⟨⟨contextType opt, newTypes⟩, rfl, fun r => ?_⟩
  have hs := (boundaryLoop_isSome (withTypes c ⟨contextType opt, newTypes⟩) r).2
    fun i _ _ _ hb => absurd rfl hb
  obtain ⟨R, hR⟩ := Option.isSome_iff_exists.1 hs
  rw [hR]
  congr 1
  funext j
  rw [boundaryLoop_apply _ _ _ hR, Finset.sum_eq_zero, add_zero]
  intro i _
  simp [boundaryTerm, withTypes, newTypes]

/-- C162.  The option `-tdy_fvtpf_boundary_condition_type` changes no face. -/
theorem C162_option_without_effect (c : Ctx) (centroid : Nat → P3) (o₁ o₂ : Option Bc)
    (typeFn : Option (P3 → ℤ)) (s₁ s₂ : Types)
    (h₁ : setupTypes c centroid o₁ typeFn = .ok s₁) (h₂ : setupTypes c centroid o₂ typeFn = .ok s₂) :
    withTypes c s₁ = withTypes c s₂ := by
  unfold setupTypes at h₁ h₂
  split at h₁ <;> simp_all
  subst h₁; subst h₂; rfl

/-- A cell with one boundary face; the pressure inside is 0 and outside it is 1. -/
def oneFace : Ctx where
  numCells := 1
  numFaces := 1
  numBnd := 1
  face := fun _ => ⟨-1, 0, true, false, .neumann, ⟨0, 1, ⟨1, 0, 0⟩, 1⟩⟩
  isLocal := fun _ => true
  vol := fun _ => 1
  por := fun _ => 1
  K0 := fun _ => ⟨1, 1, 1⟩
  source := fun _ => 0
  Sr := fun _ => 0
  cells := fun _ => { P := 0, S := 1, Kr := 1, vis := 1, rho := 1 }
  bnds := fun _ => { P := 1, S := 1, Kr := 1, vis := 1, rho := 1 }
  gravity := ⟨0, 0, 0⟩
  Pref := 0

/-- C162 is violated: the user asks on the command line for given pressures on the boundary, the
pressures inside and outside differ, and yet no water enters; it does if a type function is set. -/
theorem C162_violated :
    (∃ s, setupTypes oneFace (fun _ => ⟨0, 0, 0⟩) (some .dirichlet) none = .ok s ∧
      boundaryLoop (withTypes oneFace s) (fun _ => 0) = some fun _ => 0) ∧
    ∃ s R, setupTypes oneFace (fun _ => ⟨0, 0, 0⟩) none (some fun _ => 2) = .ok s ∧
      boundaryLoop (withTypes oneFace s) (fun _ => 0) = some R ∧ R 0 ≠ 0 := by
  constructor
  · obtain ⟨s, hs, hr⟩ := C162_without_types_closed oneFace (fun _ => ⟨0, 0, 0⟩) (some .dirichlet)
    exact ⟨s, hs, hr _⟩
  · have hf : boundaryFlux (withTypes oneFace ⟨.neumann, wr newTypes 0 .seepage⟩)
        ((withTypes oneFace ⟨.neumann, wr newTypes 0 .seepage⟩).face 0) = some 1 := by
      norm_num [withTypes, oneFace, boundaryFlux, richardsSeepageBCResidual, bndAt, bndIndex,
        seepageResidual, mobile, dphi, denAve, upweight, faceDq, faceCoefficient, directional,
        upDownPerm, dists, calculateDistances, dot]
    have hs := (boundaryLoop_isSome (withTypes oneFace ⟨.neumann, wr newTypes 0 .seepage⟩)
      (fun _ => 0)).2 fun i hi _ _ _ => by
        have : i = 0 := by
          have hi' : i < 1 := hi
          omega
        subst this
        rw [hf]; rfl
    obtain ⟨R, hR⟩ := Option.isSome_iff_exists.1 hs
    refine ⟨⟨.neumann, wr newTypes 0 .seepage⟩, R, ?_, hR, ?_⟩
    · simp [setupTypes, setFaceTypes, oneFace, forN, Res.bind, Bc.ofInt, contextType]
    · rw [boundaryLoop_apply _ _ _ hR]
      have hn : (withTypes oneFace ⟨.neumann, wr newTypes 0 .seepage⟩).numFaces = 1 := rfl
      rw [hn, Finset.sum_range_one]
      unfold boundaryTerm
      dsimp only
      rw [hf]
      simp [withTypes, oneFace]

/-- The hypotheses of `C162_type_of_centroid_partial` hold for the open boundary face above. -/
example : ∃ s, setupTypes oneFace (fun _ => ⟨0, 0, 0⟩) none (some fun _ => 2) = .ok s ∧
    s.face 0 = .seepage := by
  obtain ⟨s, hs, h, -⟩ := C162_type_of_centroid_partial oneFace (fun _ => ⟨0, 0, 0⟩) none
    (fun _ => 2) (fun i _ => by decide)
  refine ⟨s, hs, ?_⟩
  have := h 0 ⟨by simp [oneFace], rfl, rfl⟩
  cases hb : s.face 0 <;> simp_all [number]

/-- A type that does not exist is refused. -/
example : ∃ s, setupTypes oneFace (fun _ => ⟨0, 0, 0⟩) none (some fun _ => 3) = .err s :=
  C162_other_values_refused oneFace _ none _ 0 ⟨by simp [oneFace], rfl, rfl⟩
    (fun b => by cases b <;> decide)

end

end TDy.Fvtpf.Props

namespace TDy.Settings.Props

open TDy.Settings TDy.Settings.Spec

/-- A call does not lose a setting it is not about. -/
theorem step_keeps (d d' : Dy) (c : Call) (x : Context) (i : Item) (hc : d.context = some x)
    (hx : Holds x i) (hn : ¬ Touches c i) (h : step d c = .ok d') :
    d'.method = d.method ∧ ∃ y, d'.context = some y ∧ Holds y i := by
  cases c <;> cases x <;> cases i <;>
    simp_all [step, Touches, Holds] <;> subst h <;> simp_all

theorem run_keeps (cs : List Call) (d d' : Dy) (x : Context) (i : Item) (hc : d.context = some x)
    (hx : Holds x i) (hn : ∀ c ∈ cs, ¬ Touches c i) (h : run d cs = .ok d') :
    ∃ y, d'.context = some y ∧ Holds y i := by
  induction cs generalizing d x with
  | nil => simp only [run, Res.ok.injEq] at h; subst h; exact ⟨x, hc, hx⟩
  | cons c cs ih =>
    simp only [run] at h
    cases hs : step d c with
    | ok e =>
      rw [hs] at h
      obtain ⟨-, y, hy, hyi⟩ := step_keeps d e c x i hc hx (hn c (by simp)) hs
      exact ih e y hy hyi (fun c' hc' => hn c' (by simp [hc'])) h
    | err e => rw [hs] at h; simp [Res.bind] at h
    | ub => rw [hs] at h; simp [Res.bind] at h

theorem step_method (d d' : Dy) (c : Call) (h : step d c = .ok d') : d'.method = d.method := by
  cases c <;> simp only [step] at h
  · cases h; rfl
  all_goals
    split at h
    · cases h; rfl
    · cases h

theorem run_append (a b : List Call) (d : Dy) :
    run d (a ++ b) = (run d a).bind fun e => run e b := by
  induction a generalizing d with
  | nil => rfl
  | cons c a ih =>
    simp only [List.cons_append, run]
    cases step d c with
    | ok e => exact ih e
    | err e => rfl
    | ub => rfl

theorem run_method (cs : List Call) (d d' : Dy) (h : run d cs = .ok d') :
    d'.method = d.method := by
  induction cs generalizing d with
  | nil => simp only [run, Res.ok.injEq] at h; rw [h]
  | cons c cs ih =>
    simp only [run] at h
    cases hs : step d c with
    | ok e => rw [hs] at h; rw [ih e h, step_method d e c hs]
    | err e => rw [hs] at h; simp [Res.bind] at h
    | ub => rw [hs] at h; simp [Res.bind] at h

/-- What a call asks for, the struct holds afterwards. -/
theorem step_asks (d d' : Dy) (c : Call) (i : Item) (hm : owner i = d.method) (ha : Asks c i)
    (h : step d c = .ok d') : ∃ y, d'.context = some y ∧ Holds y i := by
  cases c with
  | options l =>
    simp only [step, Res.ok.injEq] at h
    subst h
    refine ⟨_, rfl, ?_⟩
    rw [← hm]
    cases i with
    | gmatrix g =>
      simp only [Asks] at ha
      simp [owner, create, fromOptions, Holds, ha]
    | bc b =>
      simp only [Asks] at ha
      simp only [owner, create, fromOptions, Holds, ha]
      split
      · rfl
      · rename_i h; exact (not_not.1 h).symm
    | wyQuad q =>
      simp only [Asks] at ha
      simp [owner, create, fromOptions, Holds, ha]
    | bdmQuad q =>
      simp only [Asks] at ha
      simp [owner, create, fromOptions, Holds, ha]
  | _ =>
    cases i <;> simp only [Asks] at ha <;> simp only [step] at h <;>
    · split at h
      · cases h; exact ⟨_, rfl, ha⟩
      · cases h

/-- C163.  The last call about a setting of the chosen method, or the command line, decides: its
value is what the method's struct holds, provided `TDySetFromOptions` is not called again. -/
theorem C163_latest_in_force_partial (d d' : Dy) (before : List Call) (c : Call)
    (after : List Call) (i : Item) (hm : owner i = d.method) (ha : Asks c i)
    (hn : ∀ c' ∈ after, ¬ Touches c' i) (h : run d (before ++ c :: after) = .ok d') :
    ∃ x, d'.context = some x ∧ Holds x i := by
  rw [run_append] at h
  cases hb : run d before with
  | ok e =>
    rw [hb] at h
    simp only [Res.bind, run] at h
    cases hs : step e c with
    | ok f =>
      rw [hs] at h
      obtain ⟨y, hy, hi⟩ := step_asks e f c i (by rw [hm, run_method before d e hb]) ha hs
      exact run_keeps after f d' y i hy hi hn h
    | err f => rw [hs] at h; simp at h
    | ub => rw [hs] at h; simp at h
  | err e => rw [hb] at h; simp [Res.bind] at h
  | ub => rw [hb] at h; simp [Res.bind] at h

/-- The struct is that of the method. -/
def Made (d : Dy) : Prop :=
  match d.method, d.context with
  | .mpfao, some (.mpfao _ _) => True
  | .fvtpf, some (.fvtpf _) => True
  | .wy, some (.wy _) => True
  | .bdm, some (.bdm _) => True
  | _, _ => False

theorem made_step (d : Dy) (c : Call) (hd : Made d) (hf : Fits d.method c) :
    ∃ d', step d c = .ok d' ∧ d'.method = d.method ∧ Made d' := by
  obtain ⟨m, ctx⟩ := d
  cases m <;> cases ctx with
  | none => simp [Made] at hd
  | some x => cases x <;> cases c <;> simp_all [Made, Fits, step, create, fromOptions]

/-- C163.  After `TDySetFromOptions`, any sequence of setters of the chosen method is defined and
succeeds. -/
theorem C163_setters_after_options_defined (m : Method) (l : CmdLine) (cs : List Call)
    (h : ∀ c ∈ cs, Fits m c) :
    ∃ d', run { method := m } (.options l :: cs) = .ok d' := by
  suffices H : ∀ d : Dy, d.method = m → Made d → ∃ d', run d cs = .ok d' by
    obtain ⟨d', hd'⟩ := H { method := m, context := some (fromOptions l (create m)) } rfl (by
      cases m <;> simp [Made, create, fromOptions])
    exact ⟨d', by simp only [run, step, Res.bind]; exact hd'⟩
  induction cs with
  | nil => intro d _ _; exact ⟨d, rfl⟩
  | cons c cs ih =>
    intro d hm hd
    obtain ⟨e, he, hme, hMe⟩ := made_step d c hd (by rw [hm]; exact h c (by simp))
    obtain ⟨d', hd'⟩ := ih (fun c' hc' => h c' (by simp [hc'])) e (by rw [hme, hm]) hMe
    exact ⟨d', by simp only [run, he, Res.bind]; exact hd'⟩

/-- C163 is violated: a setter before `TDySetFromOptions` dereferences a NULL pointer, for every
method and every setter. -/
theorem C163_setter_before_options_undefined (m : Method) (c : Call) (cs : List Call)
    (h : ∀ l, c ≠ .options l) : run { method := m } (c :: cs) = .ub := by
  cases c <;> simp_all [run, step, Res.bind]

/-- C163.  What holds if neither the command line nor the program says anything: the default matrices
and Dirichlet conditions for MPFA-O, no flow for the two-point method, lumped quadrature for WY and full
quadrature for BDM. -/
theorem C163_defaults (m : Method) :
    ∃ d x, run { method := m } [.options {}] = .ok d ∧ d.context = some x ∧
      (m = .mpfao → x = .mpfao .default .dirichlet) ∧ (m = .fvtpf → x = .fvtpf .neumann) ∧
      (m = .wy → x = .wy .lumped) ∧ (m = .bdm → x = .bdm .full) :=
  ⟨_, _, rfl, rfl, fun h => by subst h; rfl, fun h => by subst h; rfl, fun h => by subst h; rfl,
    fun h => by subst h; rfl⟩

/-- C163 is violated: `TDySetFromOptions` forgets every setting made before it; what holds then
depends on the command line only. -/
theorem C163_options_forget (d : Dy) (cs : List Call) (l : CmdLine) (e : Dy)
    (h : run d cs = .ok e) :
    run d (cs ++ [.options l]) =
      .ok { method := d.method, context := some (fromOptions l (create d.method)) } := by
  rw [run_append, h]
  simp only [Res.bind, run, step, run_method cs d e h]

/-- C163: the quadrature of BDM is the one in force. -/
theorem C163_bdm_uses_quadrature (x : Context) (q : Quad) (h : Holds x (.bdmQuad q)) :
    rule x = some q := by
  cases x <;> simp_all [Holds, rule]

/-- C163 is violated: WY integrates with the vertices whichever quadrature is in force; and if
none is asked for, the struct says `LUMPED`, although the option's text gives `FULL`. -/
theorem C163_wy_ignores_quadrature (x : Context) (q : Quad) (h : Holds x (.wyQuad q)) :
    rule x = some .lumped := by
  cases x <;> simp_all [Holds, rule]

/-- C163 is violated, by a program: the user sets the TPF option and the seepage boundary, then
reads the command line again, and MPFA-O runs with the defaults. -/
theorem C163_violated :
    run { method := .mpfao } [.options {}, .gmatrix .tpf, .bc .seepage, .options {}] =
      .ok { method := .mpfao, context := some (.mpfao .default .dirichlet) } ∧
    run { method := .wy } [.options {}, .wyQuad .full] =
      .ok { method := .wy, context := some (.wy .full) } ∧
    rule (.wy .full) = some .lumped := by
  refine ⟨rfl, rfl, rfl⟩

/-- A program that meets the hypotheses of `C163_latest_in_force_partial`. -/
example : ∃ d' x, run { method := .mpfao }
      ([.options { bc := some .neumann }] ++ .bc .seepage :: [.gmatrix .tpf]) = .ok d' ∧
    d'.context = some x ∧ Holds x (.bc .seepage) := by
  obtain ⟨x, hx, hi⟩ := C163_latest_in_force_partial { method := .mpfao } _
    [.options { bc := some .neumann }] (.bc .seepage) [.gmatrix .tpf] (.bc .seepage) rfl rfl
    (by intro c hc; simp only [List.mem_singleton] at hc; subst hc; simp [Touches]) rfl
  exact ⟨_, x, rfl, hx, hi⟩

end TDy.Settings.Props
