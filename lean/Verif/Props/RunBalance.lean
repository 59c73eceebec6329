import Verif.Spec.RunBalance
import Verif.Props.TimeIntegrator
import Verif.Props.Fvtpf
import Verif.Props.MpfaoFlux
import Verif.Props.MpfaoCoupled
import Mathlib.Tactic.IntervalCases

/-!
# C193: water and salt over a whole run

The nonlinear solver is arbitrary; all that is assumed is that, when it reports success, no entry of the
residual exceeds `tol`.  Whatever steps are taken, cut and repeated, in any number of calls of
`TDyTimeIntegratorRunToTime`, the water in the domain changes by what sources and boundaries supplied, up
to `tol` per cell and unit of time.
-/

namespace TDy.Time.Props

open TDy TDy.Time TDy.Time.Spec TDy.Time.Proofs Finset

variable {V : Type}

noncomputable section

/-! ## Chains of steps -/

theorem supplied_append (rate : V → ℝ) (l m : List (Attempt V)) :
    supplied rate (l ++ m) = supplied rate l + supplied rate m := by
  simp [supplied]

theorem spent_append (l m : List (Attempt V)) : spent (l ++ m) = spent l + spent m := by
  simp [spent]

theorem chain_balance (amount rate : V → ℝ) (e : ℝ) (l : List (Attempt V)) : ∀ p,
    FromAccepted p l →
    (∀ a ∈ l, a.ok = true →
      |amount a.result - amount a.prev - a.dtime*rate a.result| ≤ e*a.dtime) →
    Settled amount rate e p (lastAccepted p l) l := by
  induction l with
  | nil => intro p _ _; simp [Settled, lastAccepted, supplied, spent]
  | cons a l ih =>
    intro p hf hs
    obtain ⟨h1, -, h3⟩ := hf
    have hi := ih _ h3 (fun b hb => hs b (by simp [hb]))
    cases hok : a.ok
    · simp only [hok, Bool.false_eq_true, if_false] at hi
      simpa [Settled, lastAccepted, supplied, spent, hok] using hi
    · simp only [hok, if_true] at hi
      have ha := hs a (by simp) hok
      rw [h1] at ha
      unfold Settled at hi ⊢
      have e1 : lastAccepted p (a :: l) = lastAccepted a.result l := by
        simp [lastAccepted, hok]
      have e2 : supplied rate (a :: l) = a.dtime*rate a.result + supplied rate l := by
        simp [supplied, hok]
      have e3 : spent (a :: l) = a.dtime + spent l := by simp [spent, hok]
      rw [e1, e2, e3]
      have := abs_add_le (amount a.result - amount p - a.dtime*rate a.result)
        (amount (lastAccepted a.result l) - amount a.result - supplied rate l)
      have e4 : amount a.result - amount p - a.dtime*rate a.result +
          (amount (lastAccepted a.result l) - amount a.result - supplied rate l) =
          amount (lastAccepted a.result l) - amount p - (a.dtime*rate a.result + supplied rate l) := by
        ring
      rw [e4] at this
      calc _ ≤ _ := this
        _ ≤ e*a.dtime + e*spent l := add_le_add ha hi
        _ = _ := by ring

/-! ## Any number of calls -/

/-- A time integrator that can start: `TDyTimeIntegratorCreate` and the options give positive values. -/
def Ready (s : Sim V) : Prop :=
  0 < s.ti.dt ∧ 0 < s.ti.growth ∧ 0 < s.ti.dtMax ∧ s.soln = s.solnPrev

/-- Calls of `TDyTimeIntegratorRunToTime` to the given times, one after the other, all of them
successful; `l` are the solver calls of all of them. -/
inductive Runs (c : Cfg) (solver : Nat → V × Bool) :
    Sim V → List ℝ → List (Attempt V) → Sim V → Prop
  | nil (s) : Runs c solver s [] [] s
  | cons {s s1 s' : Sim V} {sync : ℝ} {syncs : List ℝ} {l : List (Attempt V)} :
      Returns c solver sync { s with trace := [] } (.ok s1) → s.ti.time ≤ sync →
      Runs c solver s1 syncs l s' →
      Runs c solver s (sync :: syncs) (attempts s1.trace ++ l) s'

theorem ready_after {c : Cfg} {solver : Nat → V × Bool} {sync : ℝ} {s s' : Sim V}
    (h : Returns c solver sync { s with trace := [] } (.ok s')) (hs : Ready s) : Ready s' := by
  obtain ⟨h1, h2, h3, h4⟩ := hs
  obtain ⟨hok, -⟩ := returns_invariant (c := c) (solver := solver) (sync := sync)
    (s := { s with trace := [] })
    (I := fun l => 0 < l.s.ti.dt ∧ 0 < l.s.ti.growth ∧ 0 < l.s.ti.dtMax)
    (E := fun _ => True) ⟨h1, h2, h3⟩
    (by
      rintro l l' k new hlt ⟨i1, i2, i3⟩ ho
      have hp := setTarget_dt_pos i1 hlt
      refine ⟨?_, ?_, ?_⟩
      · rw [ho.ti]; exact updateDT_dt_pos (mul_pos hp (quarter_pow k).1) i2 i3
      · rw [ho.ti]; exact i2
      · rw [ho.ti]; exact i3)
    (fun _ _ _ _ _ => trivial) h
  obtain ⟨l, ⟨j1, j2, j3⟩, -, e⟩ := hok s' rfl
  have h28 := (C28_failed_solves_are_undone h (.inl rfl) rfl h4).2.2 rfl
  subst e
  rw [finish_soln, finish_prev] at h28
  exact ⟨by rw [finish_ti]; exact j1, by rw [finish_ti]; exact j2, by rw [finish_ti]; exact j3,
    by rw [finish_soln, finish_prev]; exact h28⟩

/-- A single call, whatever comes of it: the balance of the steps carries over to the call. -/
theorem call_balance {c : Cfg} {solver : Nat → V × Bool} {sync : ℝ} {s s' : Sim V} {r : Res (Sim V)}
    (h : Returns c solver sync { s with trace := [] } r) (hr : r = .ok s' ∨ r = .err s')
    (hs : Ready s) (ht : s.ti.time ≤ sync) (amount rate : V → ℝ) (e : ℝ)
    (hstep : ∀ a ∈ attempts s'.trace, a.ok = true → 0 < a.dtime →
      |amount a.result - amount a.prev - a.dtime*rate a.result| ≤ e*a.dtime) :
    Settled amount rate e s.solnPrev s'.solnPrev (attempts s'.trace) := by
  obtain ⟨h1, h2, h3, h4⟩ := hs
  obtain ⟨hf, hl, -⟩ := C28_failed_solves_are_undone h hr rfl h4
  have hpos := (C22_never_overshoots h rfl ht h1 h2 h3).1 s' hr
  rw [hl]
  exact chain_balance amount rate e _ _ hf fun a ha hok => hstep a ha hok (hpos a ha).2.1

theorem runs_balance {c : Cfg} {solver : Nat → V × Bool} {s s' : Sim V} {syncs : List ℝ}
    {l : List (Attempt V)} (h : Runs c solver s syncs l s') (hs : Ready s) (amount rate : V → ℝ)
    (e : ℝ)
    (hstep : ∀ a ∈ l, a.ok = true → 0 < a.dtime →
      |amount a.result - amount a.prev - a.dtime*rate a.result| ≤ e*a.dtime) :
    Settled amount rate e s.solnPrev s'.solnPrev l := by
  induction h with
  | nil s => simp [Settled, supplied, spent]
  | @cons s s1 s' sync syncs l h1 ht h2 ih =>
    have b1 := call_balance h1 (.inl rfl) hs ht amount rate e
      (fun a ha => hstep a (List.mem_append_left _ ha))
    have b2 := ih (ready_after h1 hs) (fun a ha => hstep a (List.mem_append_right _ ha))
    unfold Settled at b1 b2 ⊢
    rw [supplied_append, spent_append]
    have := abs_add_le (amount s1.solnPrev - amount s.solnPrev - supplied rate (attempts s1.trace))
      (amount s'.solnPrev - amount s1.solnPrev - supplied rate l)
    have e4 : amount s1.solnPrev - amount s.solnPrev - supplied rate (attempts s1.trace) +
        (amount s'.solnPrev - amount s1.solnPrev - supplied rate l) =
        amount s'.solnPrev - amount s.solnPrev
          - (supplied rate (attempts s1.trace) + supplied rate l) := by ring
    rw [e4] at this
    linarith

/-! ## Steps -/

theorem step_bound {n : Nat} {dt tol a0 a1 rate : ℝ} (R : Nat → ℝ) (hdt : 0 < dt)
    (hR : ∀ j < n, |R j| ≤ tol) (h : ∑ j ∈ range n, R j = (a1 - a0)/dt - rate) :
    |a1 - a0 - dt*rate| ≤ n*tol*dt := by
  have e : a1 - a0 - dt*rate = dt*∑ j ∈ range n, R j := by rw [h]; field_simp
  rw [e, abs_mul, abs_of_pos hdt, mul_comm]
  refine mul_le_mul_of_nonneg_right ?_ hdt.le
  refine (abs_sum_le_sum_abs _ _).trans ?_
  refine (sum_le_sum fun j hj => hR j (mem_range.1 hj)).trans ?_
  simp

section Tpf
open TDy.Fvtpf TDy.Fvtpf.Spec TDy.Fvtpf.Props

/-- The two-point method on one process: every solution has its state on the same mesh. -/
structure TpfMesh (at_ : V → Fvtpf.Ctx) (n : Nat) : Prop where
  cells : ∀ U, (at_ U).numCells = n
  wf : ∀ U, WellFormed (at_ U)
  own : ∀ U j, (at_ U).isLocal j = true

/-- The water in the domain. -/
def tpfWater (n : Nat) (c : Fvtpf.Ctx) : ℝ := ∑ j ∈ range n, mass c j

open Classical in
/-- What sources and boundaries supply per unit of time. -/
def tpfSupply (n : Nat) (c : Fvtpf.Ctx) : ℝ :=
  (∑ j ∈ range n, c.source j) + ∑ i ∈ range c.numFaces,
    if IsOpenBoundary c i then (boundaryFlux c (c.face i)).getD 0 else 0

/-- The solver call `a` ended with a residual of at most `tol` in every cell; the residual is that of
`TDyFVTPFSNESFunction` after `TDyFVTPFSNESPreSolve`. -/
def TpfSolved (at_ : V → Fvtpf.Ctx) (n : Nat) (tol : ℝ) (a : Attempt V) : Prop :=
  ∃ old junk R, Fvtpf.snesFunction (at_ a.result) a.dtime (fillAccum (at_ a.prev) a.dtime old) junk
    = some R ∧ ∀ j < n, |R j| ≤ tol

theorem fillAccum_own (c : Fvtpf.Ctx) (own : ∀ j, c.isLocal j = true) (dtime : ℝ) (old : Nat → ℝ)
    (j : Nat) (hj : j < c.numCells) : fillAccum c dtime old j = mass c j/dtime := by
  have : (fun i (a : Nat → ℝ) => if !c.isLocal i then a else wr a i (accumulation c dtime i)) =
      fun i a => wr a i (accumulation c dtime i) := by
    funext i a; simp [own]
  unfold fillAccum
  rw [this, forN_fill, if_pos hj]
  unfold accumulation mass; ring

theorem tpf_step (at_ : V → Fvtpf.Ctx) (n : Nat) (m : TpfMesh at_ n) (tol : ℝ) (a : Attempt V)
    (hdt : 0 < a.dtime) (hs : TpfSolved at_ n tol a) :
    |tpfWater n (at_ a.result) - tpfWater n (at_ a.prev) - a.dtime*tpfSupply n (at_ a.result)| ≤
      n*tol*a.dtime := by
  classical
  obtain ⟨old, junk, R, h, hR⟩ := hs
  refine step_bound R hdt hR ?_
  have key := C36_conservation (at_ a.result) (m.wf _) (m.own _) a.dtime _ junk R h
  rw [m.cells] at key
  rw [key]
  have e : ∀ j ∈ range n, mass (at_ a.result) j/a.dtime - fillAccum (at_ a.prev) a.dtime old j
      - (at_ a.result).source j =
      (mass (at_ a.result) j - mass (at_ a.prev) j)/a.dtime - (at_ a.result).source j := by
    intro j hj
    rw [fillAccum_own _ (m.own _) _ _ _ (by rw [m.cells]; exact mem_range.1 hj)]
    ring
  rw [sum_congr rfl e, sum_sub_distrib, ← sum_div, sum_sub_distrib]
  unfold tpfWater tpfSupply
  ring

/-- C193 for the two-point method: over any number of calls, with any number of failed solves. -/
theorem C193_two_point {c : Cfg} {solver : Nat → V × Bool} {s s' : Sim V} {syncs : List ℝ}
    {l : List (Attempt V)} (h : Runs c solver s syncs l s') (hs : Ready s)
    (at_ : V → Fvtpf.Ctx) (n : Nat) (m : TpfMesh at_ n) (tol : ℝ)
    (solved : ∀ a ∈ l, a.ok = true → TpfSolved at_ n tol a) :
    Settled (fun U => tpfWater n (at_ U)) (fun U => tpfSupply n (at_ U)) (n*tol)
      s.solnPrev s'.solnPrev l :=
  runs_balance h hs _ _ _ fun a ha hok hdt => tpf_step at_ n m tol a hdt (solved a ha hok)

/-- The same for a call that gives up: what was accepted before is balanced. -/
theorem C193_two_point_failed {c : Cfg} {solver : Nat → V × Bool} {sync : ℝ} {s s' : Sim V}
    (h : Returns c solver sync { s with trace := [] } (.err s')) (hs : Ready s)
    (ht : s.ti.time ≤ sync) (at_ : V → Fvtpf.Ctx) (n : Nat) (m : TpfMesh at_ n) (tol : ℝ)
    (solved : ∀ a ∈ attempts s'.trace, a.ok = true → TpfSolved at_ n tol a) :
    Settled (fun U => tpfWater n (at_ U)) (fun U => tpfSupply n (at_ U)) (n*tol)
      s.solnPrev s'.solnPrev (attempts s'.trace) :=
  call_balance h (.inr rfl) hs ht _ _ _ fun a ha hok hdt => tpf_step at_ n m tol a hdt (solved a ha hok)

end Tpf

section MpfaO
open TDy.Mpfao TDy.Mpfao.Spec TDy.Mpfao.Props TDy.Mpfao.Proofs

/-- MPFA-O on one process. -/
structure MpfaoMesh (at_ : V → Mpfao.Ctx) (n : Nat) : Prop where
  cells : ∀ U, (at_ U).numCells = n
  faces : ∀ U, FacesOk (at_ U)
  own : ∀ U, OwnsAll (at_ U)

/-- The water in the domain. -/
def mpfaoWater (n : Nat) (c : Mpfao.Ctx) : ℝ := ∑ j ∈ range n, waterMass c j

/-- What sources supply and the boundary takes per unit of time, if `q` are the fluxes. -/
def mpfaoSupply (n : Nat) (c : Mpfao.Ctx) (source : Nat → ℝ) (q : Nat → Nat → ℝ) : ℝ :=
  (∑ j ∈ range n, source j) - overSubfaces c fun v i => outflow (faceOf c v i) (q v i)

/-- The solver call `a` ended with a residual of at most `tol` in every cell; the residual is that of
`TDyMPFAOSNESFunction` after `TDyMPFAOSNESPreSolve`. -/
def MpfaoSolved (at_ : V → Mpfao.Ctx) (n : Nat) (tol : ℝ) (a : Attempt V) : Prop :=
  ∃ old, ∀ j < n,
    |Mpfao.snesFunction (at_ a.result) a.dtime (Mpfao.preSolve (at_ a.prev) a.dtime old) j| ≤ tol

/-- C193 for MPFA-O. -/
theorem C193_mpfao {c : Cfg} {solver : Nat → V × Bool} {s s' : Sim V} {syncs : List ℝ}
    {l : List (Attempt V)} (h : Runs c solver s syncs l s') (hs : Ready s)
    (at_ : V → Mpfao.Ctx) (n : Nat) (m : MpfaoMesh at_ n) (tol : ℝ)
    (solved : ∀ a ∈ l, a.ok = true → MpfaoSolved at_ n tol a) :
    Settled (fun U => mpfaoWater n (at_ U))
      (fun U => mpfaoSupply n (at_ U) (at_ U).source (subfaceFlux (at_ U))) (n*tol)
      s.solnPrev s'.solnPrev l := by
  refine runs_balance h hs _ _ _ fun a ha hok hdt => ?_
  obtain ⟨old, hR⟩ := solved a ha hok
  refine step_bound _ hdt hR ?_
  have t := C48_conservation_snes (at_ a.result) (m.faces _) (m.own _) a.dtime
    (Mpfao.preSolve (at_ a.prev) a.dtime old)
  rw [m.cells] at t
  rw [t]
  have e : ∀ j ∈ range n, waterMass (at_ a.result) j/a.dtime
      - Mpfao.preSolve (at_ a.prev) a.dtime old j - (at_ a.result).source j =
      (waterMass (at_ a.result) j - waterMass (at_ a.prev) j)/a.dtime - (at_ a.result).source j := by
    intro j hj
    rw [preSolve_apply, if_pos ⟨by rw [m.cells]; exact mem_range.1 hj, (m.own _).cell j⟩]
    unfold snesAccum waterMass
    ring
  rw [sum_congr rfl e, sum_sub_distrib, ← sum_div, sum_sub_distrib]
  unfold mpfaoWater mpfaoSupply
  ring

/-- The solver call `a` ended with a residual of at most `tol` in both equations of every cell; the
residual is that of `TDyMPFAOSNESFunction_Salinity` after `TDyMPFAOSNESPreSolve_Salinity`. -/
def SalSolved (at_ : V → Sal) (n : Nat) (tol : ℝ) (a : Attempt V) : Prop :=
  ∃ old, ∀ j < n,
    |salFunction (at_ a.result) a.dtime (salPreSolve (at_ a.prev) a.dtime old) (2*j)| ≤ tol ∧
    |salFunction (at_ a.result) a.dtime (salPreSolve (at_ a.prev) a.dtime old) (2*j + 1)| ≤ tol

/-- C193 for the salinity mode: water and salt. -/
theorem C193_salinity {c : Cfg} {solver : Nat → V × Bool} {s s' : Sim V} {syncs : List ℝ}
    {l : List (Attempt V)} (h : Runs c solver s syncs l s') (hs : Ready s)
    (at_ : V → Sal) (n : Nat) (m : MpfaoMesh (fun U => (at_ U).base) n) (tol : ℝ)
    (solved : ∀ a ∈ l, a.ok = true → SalSolved at_ n tol a) :
    Settled (fun U => mpfaoWater n (at_ U).base)
      (fun U => mpfaoSupply n (at_ U).base (at_ U).base.source (salFluxm (at_ U))) (n*tol)
      s.solnPrev s'.solnPrev l ∧
    Settled (fun U => ∑ j ∈ range n, saltMass (at_ U) j)
      (fun U => mpfaoSupply n (at_ U).base (at_ U).saltSource (salFluxt (at_ U))) (n*tol)
      s.solnPrev s'.solnPrev l := by
  have mc : ∀ U, (at_ U).base.numCells = n := m.cells
  constructor <;> refine runs_balance h hs _ _ _ fun a ha hok hdt => ?_
  · obtain ⟨old, hR⟩ := solved a ha hok
    refine step_bound _ hdt (fun j hj => (hR j hj).1) ?_
    have t := (C53_conservation (at_ a.result) (m.faces a.result) (m.own a.result) a.dtime
      (salPreSolve (at_ a.prev) a.dtime old)).1
    rw [mc] at t
    rw [t]
    have e : ∀ j ∈ range n, waterMass (at_ a.result).base j/a.dtime
        - salPreSolve (at_ a.prev) a.dtime old (2*j) - (at_ a.result).base.source j =
        (waterMass (at_ a.result).base j - waterMass (at_ a.prev).base j)/a.dtime
          - (at_ a.result).base.source j := by
      intro j hj
      rw [(salPreSolve_apply (at_ a.prev) a.dtime old j (by rw [mc]; exact mem_range.1 hj)
        ((m.own a.prev).cell j)).1, snesAccum_eq]
      ring
    rw [sum_congr rfl e, sum_sub_distrib, ← sum_div, sum_sub_distrib]
    unfold mpfaoWater mpfaoSupply
    ring
  · obtain ⟨old, hR⟩ := solved a ha hok
    refine step_bound _ hdt (fun j hj => (hR j hj).2) ?_
    have t := (C53_conservation (at_ a.result) (m.faces a.result) (m.own a.result) a.dtime
      (salPreSolve (at_ a.prev) a.dtime old)).2
    rw [mc] at t
    rw [t]
    have e : ∀ j ∈ range n, saltMass (at_ a.result) j/a.dtime
        - salPreSolve (at_ a.prev) a.dtime old (2*j + 1) - (at_ a.result).saltSource j =
        (saltMass (at_ a.result) j - saltMass (at_ a.prev) j)/a.dtime
          - (at_ a.result).saltSource j := by
      intro j hj
      rw [(salPreSolve_apply (at_ a.prev) a.dtime old j (by rw [mc]; exact mem_range.1 hj)
        ((m.own a.prev).cell j)).2, saltAccum_eq]
      ring
    rw [sum_congr rfl e, sum_sub_distrib, ← sum_div, sum_sub_distrib]
    unfold mpfaoSupply
    ring

end MpfaO

/-! ## The reported time -/

theorem spent_simulated (tr : List (Ev V)) : spent (attempts tr) = simulated tr := rfl

/-- If no solve fails on a step that was shortened to end at the requested time, the water that was
supplied is that of the time reported: with a steady supply, rate times reported time. -/
theorem C193_reported_time_partial {c : Cfg} {solver : Nat → V × Bool} {sync : ℝ} {s s' : Sim V}
    (h : Returns c solver sync { s with trace := [] } (.ok s')) (hs : Ready s)
    (ht : s.ti.time ≤ sync) (hsave : s.ti.dtSave = 0)
    (hnf : ∀ a ∈ failed s'.trace, a.start + a.dtime ≠ sync)
    (at_ : V → Fvtpf.Ctx) (n : Nat) (m : TpfMesh at_ n) (tol q : ℝ)
    (solved : ∀ a ∈ attempts s'.trace, a.ok = true → TpfSolved at_ n tol a)
    (steady : ∀ U, tpfSupply n (at_ U) = q) :
    |tpfWater n (at_ s'.solnPrev) - tpfWater n (at_ s.solnPrev) - q*(s'.ti.time - s.ti.time)| ≤
      n*tol*(s'.ti.time - s.ti.time) := by
  have b := call_balance h (.inl rfl) hs ht (fun U => tpfWater n (at_ U))
    (fun U => tpfSupply n (at_ U)) (n*tol) fun a ha hok hdt => tpf_step at_ n m tol a hdt (solved a ha hok)
  obtain ⟨h1, h2, h3, -⟩ := hs
  have t := (C25_reported_time_partial h rfl hsave h1 h2 h3 hnf).1
  simp only at t
  have e1 : spent (attempts s'.trace) = s'.ti.time - s.ti.time := by
    rw [spent_simulated, t]; ring
  have e2 : supplied (fun U => tpfSupply n (at_ U)) (attempts s'.trace) =
      q*spent (attempts s'.trace) := by
    unfold supplied spent
    simp only [steady]
    rw [List.sum_map_mul_right, mul_comm]
  unfold Settled at b
  rw [e2, e1] at b
  exact b

/-- C193 fails for the reported time: whenever a solve fails on the step that was shortened to end at
the requested time, and sources supply the domain steadily, the run reports the requested time with
less water in the domain than the sources supplied, even though every equation was solved exactly. -/
theorem C193_water_missing {c : Cfg} {solver : Nat → V × Bool} {sync : ℝ} {s s' : Sim V}
    (h : Returns c solver sync { s with trace := [] } (.ok s')) (hs : Ready s)
    (ht : s.ti.time < sync) (hdt : sync - s.ti.time < s.ti.dt) (hf : failed s'.trace ≠ [])
    (at_ : V → Fvtpf.Ctx) (n : Nat) (m : TpfMesh at_ n) (q : ℝ) (hq : 0 < q)
    (solved : ∀ a ∈ attempts s'.trace, a.ok = true → TpfSolved at_ n 0 a)
    (steady : ∀ U, tpfSupply n (at_ U) = q) :
    s'.ti.time = sync ∧
      tpfWater n (at_ s'.solnPrev) < tpfWater n (at_ s.solnPrev) + q*(sync - s.ti.time) := by
  have b := call_balance h (.inl rfl) hs ht.le (fun U => tpfWater n (at_ U))
    (fun U => tpfSupply n (at_ U)) (n*0) fun a ha hok hdt => tpf_step at_ n m 0 a hdt (solved a ha hok)
  obtain ⟨t1, t2⟩ := C25_time_skipped h rfl ht hdt hf
  refine ⟨t1, ?_⟩
  have e2 : supplied (fun U => tpfSupply n (at_ U)) (attempts s'.trace) =
      q*spent (attempts s'.trace) := by
    unfold supplied spent
    simp only [steady]
    rw [List.sum_map_mul_right, mul_comm]
  unfold Settled at b
  rw [e2, mul_zero, zero_mul, spent_simulated] at b
  have b' := abs_nonpos_iff.1 b
  simp only at t2
  nlinarith [mul_lt_mul_of_pos_left t2 hq]

/-! ## A tank that is filled -/

namespace TankWitness
open TDy.Fvtpf TDy.Fvtpf.Spec TDy.Fvtpf.Props TDy.Fvtpf.Proofs

/-- Two cells with a face between them, at the same pressure; a source in each. -/
def tank (U : ℝ) : Fvtpf.Ctx :=
  { pair with cells := fun _ => ⟨0, 1, 1, 1, U, 0, 0, 0, 0⟩, source := fun _ => 1 }

theorem tank_flux (U old : ℝ) : richardsResidual (tank U) ((tank U).face 0) old = 0 := by
  have hm : mobile ((tank U).cells 0) ((tank U).cells 1) := Or.inl (by norm_num [tank])
  show residual (faceDq (tank U) ((tank U).face 0)) (dists (tank U) ((tank U).face 0)).1
    (dists (tank U) ((tank U).face 0)).2 1 ((tank U).cells 0) ((tank U).cells 1) old = 0
  rw [residual_mobile hm]
  have : dphi (dists (tank U) ((tank U).face 0)).1 (dists (tank U) ((tank U).face 0)).2
      ((tank U).cells 0) ((tank U).cells 1) = 0 := by
    norm_num [tank, pair, dphi, dists, calculateDistances, denAve, Geo.dot]
  rw [this]; ring

theorem tank_mesh : TpfMesh tank 2 where
  cells _ := rfl
  wf U := ⟨fun i _ _ => by simp [tank, pair], fun i _ h => absurd h.2.1 (by simp [tank, pair])⟩
  own _ _ := rfl

theorem tank_steady (U : ℝ) : tpfSupply 2 (tank U) = 2 := by
  have : ∀ i, ¬ IsOpenBoundary (tank U) i := fun i h => absurd h.2.1 (by simp [tank, pair])
  unfold tpfSupply
  simp only [this, if_false, sum_const_zero, add_zero]
  norm_num [tank]

/-- A step of length `dt` from density `a` to density `b` is solved if each cell gained `dt`. -/
theorem tank_solved {a : Attempt ℝ} (hdt : a.dtime ≠ 0) (h : a.result = a.prev + a.dtime) :
    TpfSolved tank 2 0 a := by
  have hs : (boundaryLoop (tank a.result)
      (internalLoop (tank a.result) (fun _ => 0) fun _ => 0)).isSome = true :=
    (boundaryLoop_isSome _ _).2 (fun i _ _ h _ => absurd h (by simp [tank, pair]))
  obtain ⟨B, hB⟩ := Option.isSome_iff_exists.1 hs
  have hR : Fvtpf.snesFunction (tank a.result) a.dtime
      (fillAccum (tank a.prev) a.dtime fun _ => 0) (fun _ => 0) = some (cellLoop (tank a.result) a.dtime
      (fillAccum (tank a.prev) a.dtime fun _ => 0) B) := by
    unfold Fvtpf.snesFunction; rw [hB]; rfl
  refine ⟨fun _ => 0, fun _ => 0, _, hR, fun j hj => ?_⟩
  rw [snesFunction_apply _ _ _ _ _ hR j]
  have e : internalTerm (tank a.result) (fun _ => 0) 0 j = 0 := by
    unfold internalTerm
    simp only [tank_flux]; simp
  have e2 : boundaryTerm (tank a.result) 0 j = 0 := by unfold boundaryTerm; simp [tank, pair]
  simp only [show (tank a.result).numFaces = 1 from rfl, sum_range_one, e, e2]
  rw [fillAccum_own _ (fun _ => rfl) _ _ _ hj]
  simp only [tank, pair, accumulation, mass, h]
  field_simp
  norm_num

/-- The first solve fails, the next one succeeds. -/
def solver : Nat → ℝ × Bool := fun n => (1.25, n != 0)

def start : Sim ℝ :=
  { ti := { dtMax := 1e20, growth := 1.25, dt := 2, dtSave := 0, time := 0, istep := 0 }
    soln := 1, solnPrev := 1, dtime := 0, calls := 0, trace := [] }

def stop : Sim ℝ :=
  ⟨⟨1e20, 1.25, 2.5, 0, 1, 1⟩, 1.25, 1.25, 0.25, 2,
    [.attempt ⟨0, 1, 1, 1, 1.25, false⟩, .output 0 0 1, .attempt ⟨0, 0.25, 1, 1, 1.25, true⟩,
     .output 0.25 1 1.25, .checkpoint 1 1 1.25]⟩

theorem run : Returns cfg0 solver 1 start (.ok stop) := by
  refine ⟨2, ?_⟩
  norm_num [runToTime, loop, round, inner, startStep, setTargetTime, start, solver, cfg0,
      solve, cutStep, restore, maybeOutput, accept, maybeCheckpoint, updateDT, checkpoint, finish,
      stop]

theorem ready : Ready start := by norm_num [Ready, start]

theorem run_solved : ∀ a ∈ attempts stop.trace, a.ok = true → TpfSolved tank 2 0 a := by
  intro a ha hok
  simp only [stop, attempts, List.filterMap_cons, List.filterMap_nil, List.mem_cons,
    List.not_mem_nil, or_false] at ha
  rcases ha with rfl | rfl
  · simp at hok
  · exact tank_solved (by norm_num) (by norm_num)

/-- The hypotheses of `C193_two_point` are met by a run with a failed solve: the tank gains what the
sources supply in the quarter of a second that was simulated. -/
example : Settled (fun U => tpfWater 2 (tank U)) (fun U => tpfSupply 2 (tank U)) ((2:ℕ)*0)
    start.solnPrev stop.solnPrev (attempts stop.trace ++ []) :=
  C193_two_point (.cons run (by norm_num [start]) (.nil _)) ready tank 2 tank_mesh 0
    (by simpa using run_solved)

/-- And those of `C193_water_missing`: the run reports one second, the sources supply 2 per second, and
the tank holds less than 2 + 2. -/
example : stop.ti.time = 1 ∧ tpfWater 2 (tank stop.solnPrev) < tpfWater 2 (tank start.solnPrev) + 2*(1 - 0) :=
  C193_water_missing run ready (by norm_num [start]) (by norm_num [start])
    (by simp [failed, attempts, stop]) tank 2 tank_mesh 2 (by norm_num) run_solved tank_steady

/-- A solver that succeeds at once, for `C193_reported_time_partial`. -/
def good : Nat → ℝ × Bool := fun _ => (2, true)

def goodStop : Sim ℝ :=
  ⟨⟨1e20, 1.25, 2.5, 0, 1, 1⟩, 2, 2, 1, 1,
    [.attempt ⟨0, 1, 1, 1, 2, true⟩, .output 1 1 2, .checkpoint 1 1 2]⟩

theorem goodRun : Returns cfg0 good 1 start (.ok goodStop) := by
  refine ⟨2, ?_⟩
  norm_num [runToTime, loop, round, inner, startStep, setTargetTime, start, good, cfg0,
      solve, cutStep, restore, maybeOutput, accept, maybeCheckpoint, updateDT, checkpoint, finish,
      goodStop]

example : |tpfWater 2 (tank goodStop.solnPrev) - tpfWater 2 (tank start.solnPrev)
    - 2*(goodStop.ti.time - start.ti.time)| ≤ (2:ℕ)*0*(goodStop.ti.time - start.ti.time) :=
  C193_reported_time_partial goodRun ready (by norm_num [start]) rfl
    (by simp [failed, attempts, goodStop]) tank 2 tank_mesh 0 2
    (by
      intro a ha _
      simp only [goodStop, attempts, List.filterMap_cons, List.filterMap_nil, List.mem_cons,
        List.not_mem_nil, or_false] at ha
      subst ha
      exact tank_solved (by norm_num) (by norm_num)) tank_steady

end TankWitness

namespace ThroughWitness
open TDy.Mpfao TDy.Mpfao.Spec TDy.Mpfao.Props TDy.Mpfao.Proofs

/-- Two cells, 2 supplied to the first, 1 taken from the second, 1 leaving through the boundary. -/
def flow : Mpfao.Ctx := { FluxWitness.c with source := fun j => if j = 0 then 2 else -1 }

theorem flow_mesh : MpfaoMesh (fun _ : ℝ => flow) 2 where
  cells _ := rfl
  faces _ := ⟨FluxWitness.facesOk.up, FluxWitness.facesOk.dn⟩
  own _ := ⟨FluxWitness.ownsAll.vert, FluxWitness.ownsAll.face, FluxWitness.ownsAll.cell⟩

theorem flow_out (q : Nat → Nat → ℝ) (h0 : q 0 0 = 2) (h1 : q 0 1 = 1) (j : Nat) (hj : j < 2) :
    cellOutflow flow q j = if j = 0 then 2 else -1 := by
  have e : cellOutflow flow q j =
      ((if (0:ℤ) = j then (2:ℝ) else 0) - (if (1:ℤ) = j then 2 else 0)) +
      ((if (1:ℤ) = j then (1:ℝ) else 0) - (if (-1:ℤ) = j then 1 else 0)) := by
    rw [← h0, ← h1]
    unfold cellOutflow overSubfaces
    simp only [flow, FluxWitness.c, FluxWitness.v, sum_range_succ, sum_range_zero, zero_add]
    rfl
  rw [e]
  interval_cases j <;> norm_num

theorem flow_solved (a : Attempt ℝ) : MpfaoSolved (fun _ => flow) 2 0 a := by
  refine ⟨fun _ => 0, fun j hj => ?_⟩
  have own := flow_mesh.own 0
  rw [C48_cell_snes flow own _ _ j hj, preSolve_apply, if_pos ⟨hj, own.cell j⟩,
    flow_out (subfaceFlux flow) FluxWitness.flux.1 FluxWitness.flux.2 j hj]
  have : snesAccum flow a.dtime j = waterMass flow j/a.dtime := by unfold snesAccum waterMass; ring
  rw [this]
  simp [flow]

/-- Not every solver may cut steps: MPFA-O has no `TDyTimeCut`. -/
def cfgM : Cfg := { cfg0 with canCut := false }

theorem goodRunM : Returns cfgM TankWitness.good 1 TankWitness.start (.ok TankWitness.goodStop) := by
  refine ⟨2, ?_⟩
  norm_num [runToTime, loop, round, inner, startStep, setTargetTime, TankWitness.start,
      TankWitness.good, cfg0, cfgM,
      solve, cutStep, restore, maybeOutput, accept, maybeCheckpoint, updateDT, checkpoint, finish,
      TankWitness.goodStop]

example : Settled (fun _ : ℝ => mpfaoWater 2 flow)
    (fun _ => mpfaoSupply 2 flow flow.source (subfaceFlux flow)) ((2:ℕ)*0)
    TankWitness.start.solnPrev TankWitness.goodStop.solnPrev
    (attempts TankWitness.goodStop.trace ++ []) :=
  C193_mpfao (.cons goodRunM (by norm_num [TankWitness.start]) (.nil _)) TankWitness.ready
    (fun _ => flow) 2 flow_mesh 0 fun a _ _ => flow_solved a

/-- The same with salt, which goes where the water goes. -/
def salty : Sal := { SaltWitness.s with base := flow, saltSource := fun j => if j = 0 then 2 else -1 }

theorem salty_fluxm : salFluxm salty 0 0 = 2 ∧ salFluxm salty 0 1 = 1 := by
  have e0 : ttimesP salty.base (slot (salty.base.vert 0) 0) = -2 := FluxWitness.ttimesP_0
  have e1 : ttimesP salty.base (slot (salty.base.vert 0) 1) = -1 := FluxWitness.ttimesP_4
  constructor <;> unfold salFluxm <;> simp only [e0, e1] <;>
    simp [denAvg, ukvrTP, side, FluxWitness.face, salty, flow, FluxWitness.c, FluxWitness.v,
      FluxWitness.s] <;> norm_num

theorem salty_solved (a : Attempt ℝ) : SalSolved (fun _ => salty) 2 0 a := by
  refine ⟨fun _ => 0, fun j hj => ?_⟩
  have own : OwnsAll salty.base := flow_mesh.own 0
  have hc := C53_cell salty own a.dtime (salPreSolve salty a.dtime fun _ => 0) j hj
  have hp := salPreSolve_apply salty a.dtime (fun _ => 0) j hj (own.cell j)
  have f0 : salFluxt salty 0 0 = 2 := SaltWitness.fluxt.1
  have f1 : salFluxt salty 0 1 = 1 := SaltWitness.fluxt.2
  have o1 : cellOutflow salty.base (salFluxm salty) j = if j = 0 then 2 else -1 :=
    flow_out _ salty_fluxm.1 salty_fluxm.2 j hj
  have o2 : cellOutflow salty.base (salFluxt salty) j = if j = 0 then 2 else -1 :=
    flow_out _ f0 f1 j hj
  rw [hc.1, hc.2, hp.1, hp.2, snesAccum_eq, saltAccum_eq, o1, o2]
  constructor <;> simp [salty, flow]

example : Settled (fun _ : ℝ => ∑ j ∈ range 2, saltMass salty j)
    (fun _ => mpfaoSupply 2 salty.base salty.saltSource (salFluxt salty)) ((2:ℕ)*0)
    TankWitness.start.solnPrev TankWitness.goodStop.solnPrev
    (attempts TankWitness.goodStop.trace ++ []) :=
  (C193_salinity (.cons goodRunM (by norm_num [TankWitness.start]) (.nil _)) TankWitness.ready
    (fun _ => salty) 2 ⟨flow_mesh.cells, flow_mesh.faces, flow_mesh.own⟩ 0
    fun a _ _ => salty_solved a).2

end ThroughWitness

end

end TDy.Time.Props
