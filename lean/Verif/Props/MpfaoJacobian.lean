import Verif.Props.MpfaoFlux
import Mathlib.Analysis.Calculus.Deriv.Mul
import Mathlib.Analysis.Calculus.Deriv.Inv
import Mathlib.Analysis.Calculus.Deriv.Add
import Mathlib.Analysis.Calculus.Deriv.Pow

/-!
# C50 and the MPFA-O part of C45: the Jacobian is the derivative of the residual

The pressures of the cells are the unknowns `U`; `s j p` is the state of cell `j` at pressure `p`,
and carries its own derivatives.
-/

namespace TDy.Mpfao.Props

open TDy.Mpfao TDy.Mpfao.Spec TDy.Mpfao.Proofs Finset
open TDy.Fvtpf (Side Bc)
open TDy.Fvtpf.Spec (Smooth)

noncomputable section

/-- The context in which cell `j` has the state `s j` at pressure `U j`. -/
def ctxAt (c : Ctx) (s : Nat → ℝ → Side) (U : Nat → ℝ) : Ctx :=
  { c with cells := fun j => s j (U j) }

/-- What the mesh and the transmissibilities have to satisfy. -/
structure JacOk (c : Ctx) : Prop where
  /-- every subface has its own entry in the vectors of subfaces -/
  slots : ∀ v i v' i', IsSubface c v i → IsSubface c v' i' →
    slot (c.vert v) i = slot (c.vert v') i' → v = v' ∧ i = i'
  /-- the rows are read where they are written -/
  own : ∀ v i, IsSubface c v i → wslot (c.vert v) i = slot (c.vert v) i
  /-- the entries of a row of the transmissibility matrix: first the cells of the vertex, with the
  values that are also kept for the Jacobian, then boundary faces -/
  le : ∀ v, (c.vert v).nCells ≤ (c.vert v).nCols
  cells : ∀ v, ∀ k < (c.vert v).nCells,
    (c.vert v).col k = (c.vert v).cell k ∧ (c.vert v).cell k < c.numCells
  same : ∀ v i, IsSubface c v i → ∀ k < (c.vert v).nCells, (c.vert v).M i k = (c.vert v).T i k
  bnds : ∀ v, ∀ j < (c.vert v).nCols, (c.vert v).nCells ≤ j →
    c.numCells ≤ (c.vert v).col j ∧ (c.vert v).col j < c.numCells + c.numBnd
  inj : ∀ v, ∀ k < (c.vert v).nCells, ∀ k' < (c.vert v).nCells,
    (c.vert v).cell k = (c.vert v).cell k' → k = k'
  /-- the two sides of a face differ, and its cells are cells of the vertex -/
  ne : ∀ v i, IsSubface c v i → (faceOf c v i).up ≠ (faceOf c v i).dn
  memUp : ∀ v i, IsSubface c v i → 0 ≤ (faceOf c v i).up →
    ∃ k < (c.vert v).nCells, (((c.vert v).cell k : Nat) : ℤ) = (faceOf c v i).up
  memDn : ∀ v i, IsSubface c v i → 0 ≤ (faceOf c v i).dn →
    ∃ k < (c.vert v).nCells, (((c.vert v).cell k : Nat) : ℤ) = (faceOf c v i).dn
  /-- this rank works on the subfaces of its cells -/
  touch : ∀ v i, IsSubface c v i →
    (0 ≤ (faceOf c v i).up ∧ c.isLocal (faceOf c v i).up.toNat = true) ∨
    (0 ≤ (faceOf c v i).dn ∧ c.isLocal (faceOf c v i).dn.toNat = true) → active c v i
  /-- no flow through a Neumann boundary -/
  neumann : ∀ v i, IsSubface c v i → c.bc = .neumann →
    (faceOf c v i).up < 0 ∨ (faceOf c v i).dn < 0 →
    (∀ j < (c.vert v).nCols, (c.vert v).M i j = 0) ∧ c.grav (slot (c.vert v) i) = 0

/-! ### The product with the transmissibilities -/

/-- The entry of `TtimesP_vec` of a subface is its own row times the pressures. -/
theorem C50_ttimesP_partial (c : Ctx) (ok : JacOk c) (v i : Nat) (hs : IsSubface c v i)
    (hl : (c.vert v).isLocal = true) :
    ttimesP c (slot (c.vert v) i) =
      ∑ j ∈ range (c.vert v).nCols, (c.vert v).M i j*pVec c ((c.vert v).col j) := by
  have hcol : ∀ j < (c.vert v).nCols, (c.vert v).col j < c.numCells + c.numBnd := by
    intro j hj
    by_cases h : j < (c.vert v).nCells
    · obtain ⟨h1, h2⟩ := ok.cells v j h
      omega
    · exact (ok.bnds v j hj (by omega)).2
  have row : ∀ b, transMat c (slot (c.vert v) i) b =
      ∑ j ∈ range (c.vert v).nCols, if b = (c.vert v).col j then (c.vert v).M i j else 0 := by
    intro b
    rw [transMat_apply, sum_eq_single v, sum_eq_single i]
    · rw [if_pos hl]
      exact sum_congr rfl fun j _ => by simp [ok.own v i hs]
    · intro i' hi' hne
      rw [if_pos hl]
      refine sum_eq_zero fun j _ => if_neg ?_
      rintro ⟨e, _⟩
      rw [ok.own v i' ⟨hs.1, mem_range.1 hi'⟩] at e
      exact hne (ok.slots v i v i' hs ⟨hs.1, mem_range.1 hi'⟩ e).2.symm
    · intro h; exact absurd (mem_range.2 hs.2) h
    · intro v' hv' hne
      refine sum_eq_zero fun i' hi' => ?_
      split
      · refine sum_eq_zero fun j _ => if_neg ?_
        rintro ⟨e, _⟩
        rw [ok.own v' i' ⟨mem_range.1 hv', mem_range.1 hi'⟩] at e
        exact hne (ok.slots v i v' i' hs ⟨mem_range.1 hv', mem_range.1 hi'⟩ e).1.symm
      · rfl
    · intro h; exact absurd (mem_range.2 hs.1) h
  unfold ttimesP
  simp only [row, sum_mul]
  rw [sum_comm]
  refine sum_congr rfl fun j hj => ?_
  rw [sum_eq_single ((c.vert v).col j)]
  · simp
  · intro b _ hb; simp [hb]
  · intro h; exact absurd (mem_range.2 (hcol j (mem_range.1 hj))) h

theorem jacOk_ctxAt (c : Ctx) (ok : JacOk c) (s : Nat → ℝ → Side) (U : Nat → ℝ) :
    JacOk (ctxAt c s U) :=
  ⟨ok.slots, ok.own, ok.le, ok.cells, ok.same, ok.bnds, ok.inj, ok.ne, ok.memUp, ok.memDn, ok.touch,
    ok.neumann⟩

/-- Sum of the transmissibilities of cell `b` in row `i`. -/
def tOf (c : Ctx) (v i b : Nat) : ℝ :=
  ∑ k ∈ range (c.vert v).nCells, if b = (c.vert v).cell k then (c.vert v).T i k else 0

theorem ttimesP_hasDerivAt (c : Ctx) (ok : JacOk c) (s : Nat → ℝ → Side) (U : Nat → ℝ)
    (hP : ∀ j x, (s j x).P = x) (v i b : Nat) (hs : IsSubface c v i)
    (hl : (c.vert v).isLocal = true) (hb : b < c.numCells) (x0 : ℝ) :
    HasDerivAt (fun x => ttimesP (ctxAt c s (Function.update U b x)) (slot (c.vert v) i))
      (tOf c v i b) x0 := by
  have e : (fun x => ttimesP (ctxAt c s (Function.update U b x)) (slot (c.vert v) i)) =
      fun x => ∑ j ∈ range (c.vert v).nCols,
        (c.vert v).M i j*pVec (ctxAt c s (Function.update U b x)) ((c.vert v).col j) := by
    funext x
    exact C50_ttimesP_partial (ctxAt c s (Function.update U b x)) (jacOk_ctxAt c ok s _) v i hs hl
  rw [e]
  have term : ∀ j ∈ range (c.vert v).nCols, HasDerivAt
      (fun x => (c.vert v).M i j*pVec (ctxAt c s (Function.update U b x)) ((c.vert v).col j))
      ((c.vert v).M i j*(if (c.vert v).col j = b then 1 else 0)) x0 := by
    intro j _
    apply HasDerivAt.const_mul
    have hp : ∀ x, pVec (ctxAt c s (Function.update U b x)) ((c.vert v).col j) =
        if (c.vert v).col j < c.numCells then Function.update U b x ((c.vert v).col j)
        else (c.bnds ((c.vert v).col j - c.numCells)).P := by
      intro x
      unfold pVec ctxAt
      dsimp only
      split
      · rw [hP]
      · rfl
    simp only [hp]
    by_cases hj : (c.vert v).col j = b
    · simp only [hj, hb, if_true, Function.update_self]
      exact hasDerivAt_id x0
    · have : ∀ x, Function.update U b x ((c.vert v).col j) = U ((c.vert v).col j) :=
        fun x => Function.update_of_ne hj _ _
      simp only [this, hj, if_false]
      exact hasDerivAt_const _ _
  refine (HasDerivAt.fun_sum term).congr_deriv ?_
  unfold tOf
  have hsub : range (c.vert v).nCells ⊆ range (c.vert v).nCols := by
    intro k hk; exact mem_range.2 (lt_of_lt_of_le (mem_range.1 hk) (ok.le v))
  rw [← sum_subset hsub]
  · refine sum_congr rfl fun k hk => ?_
    rw [(ok.cells v k (mem_range.1 hk)).1, ok.same v i hs k (mem_range.1 hk)]
    by_cases h : b = (c.vert v).cell k
    · rw [if_pos h, if_pos h.symm, mul_one]
    · rw [if_neg h, if_neg (fun e => h e.symm), mul_zero]
  · intro j hj hn
    have := (ok.bnds v j (mem_range.1 hj)
      (Nat.not_lt.1 fun h => hn (mem_range.2 h))).1
    rw [if_neg (by omega), mul_zero]

/-! ### The sides of a face -/

theorem side_const (c : Ctx) (s : Nat → ℝ → Side) (U : Nat → ℝ) (b : Nat) (x : ℝ) (id : ℤ)
    (h : id ≠ b) : side (ctxAt c s (Function.update U b x)) id = side (ctxAt c s U) id := by
  unfold side ctxAt
  dsimp only
  split
  · rw [Function.update_of_ne (by omega)]
  · rfl

theorem side_self (c : Ctx) (s : Nat → ℝ → Side) (U : Nat → ℝ) (b : Nat) (x : ℝ) :
    side (ctxAt c s (Function.update U b x)) (b : ℤ) = s b x := by
  unfold side ctxAt
  simp

theorem rho_hasDerivAt (c : Ctx) (s : Nat → ℝ → Side) (U : Nat → ℝ) (b : Nat) (id : ℤ)
    (sm : Smooth (s b) (U b)) :
    HasDerivAt (fun x => (side (ctxAt c s (Function.update U b x)) id).rho)
      (if id = b then (s b (U b)).drho else 0) (U b) := by
  by_cases h : id = b
  · subst h
    simp only [side_self, if_true]
    exact sm.rho
  · simp only [side_const c s U b _ id h, h, if_false]
    exact hasDerivAt_const _ _

theorem mobility_hasDerivAt (c : Ctx) (s : Nat → ℝ → Side) (U : Nat → ℝ) (b : Nat) (id : ℤ)
    (sm : Smooth (s b) (U b)) (hv : (s b (U b)).vis ≠ 0) :
    HasDerivAt (fun x => (side (ctxAt c s (Function.update U b x)) id).Kr/
        (side (ctxAt c s (Function.update U b x)) id).vis)
      (if id = b then dukvrCell (s b (U b)) else 0) (U b) := by
  by_cases h : id = b
  · subst h
    simp only [side_self, if_true]
    refine (sm.Kr.div sm.vis hv).congr_deriv ?_
    unfold dukvrCell
    field_simp
  · simp only [side_const c s U b _ id h, h, if_false]
    exact hasDerivAt_const _ _

theorem denAvgJ_eq (c : Ctx) (f : MFace) : denAvgJ c f = denAvg c f := by
  unfold denAvgJ denAvg; norm_num; ring

theorem drivingJ_eq (c : Ctx) (f : MFace) (TP G : ℝ) : drivingJ c f TP G = driving c f TP G := by
  unfold drivingJ driving; rw [denAvgJ_eq]

theorem denAvg_hasDerivAt (c : Ctx) (s : Nat → ℝ → Side) (U : Nat → ℝ) (b : Nat) (f : MFace)
    (sm : Smooth (s b) (U b)) :
    HasDerivAt (fun x => denAvg (ctxAt c s (Function.update U b x)) f)
      ((if f.up = b then 0.5*(s b (U b)).drho else 0) +
       (if f.dn = b then 0.5*(s b (U b)).drho else 0)) (U b) := by
  unfold denAvg
  have h1 := rho_hasDerivAt c s U b f.up sm
  have h2 := rho_hasDerivAt c s U b f.dn sm
  refine (((hasDerivAt_const (U b) (0.0:ℝ)).add h1).add h2 |>.mul_const (0.5:ℝ)).congr_deriv ?_
  split_ifs <;> ring

theorem update_self' (U : Nat → ℝ) (b : Nat) : Function.update U b (U b) = U :=
  Function.update_eq_self b U

/-- Derivative of the flux when the upwind side is fixed. -/
theorem formula_hasDerivAt (den uk tp : ℝ → ℝ) (G den' uk' tp' x0 : ℝ)
    (h1 : HasDerivAt den den' x0) (h2 : HasDerivAt uk uk' x0) (h3 : HasDerivAt tp tp' x0) :
    HasDerivAt (fun x => den x*uk x*(-tp x) + -den x ^ (2:ℕ)*uk x*G)
      (-(den'*uk x0*tp x0 + den x0*uk'*tp x0 + den x0*uk x0*tp' +
        2*den x0*den'*uk x0*G + den x0 ^ (2:ℕ)*uk'*G)) x0 := by
  refine ((((h1.mul h2).mul h3.neg)).add (((h1.pow 2).neg.mul h2).mul_const G)).congr_deriv ?_
  simp
  ring

/-- C50 for one subface: away from the points where the flow changes direction, the derivative of
the flux with respect to the pressure of cell `b` is the sum of the entries the Jacobian routine
computes for the columns of that cell (at most one, as the cells of a vertex differ). -/
theorem C50_subface_partial (c : Ctx) (ok : JacOk c) (s : Nat → ℝ → Side) (U : Nat → ℝ)
    (junk : Nat → Nat → ℝ) (v i b : Nat)
    (hs : IsSubface c v i) (ha : active c v i) (hb : b < c.numCells)
    (hP : ∀ j x, (s j x).P = x) (sm : Smooth (s b) (U b)) (hvis : (s b (U b)).vis ≠ 0)
    (hdrive : driving (ctxAt c s U) (faceOf c v i) (ttimesP (ctxAt c s U) (slot (c.vert v) i))
      (c.grav (slot (c.vert v) i)) ≠ 0) :
    HasDerivAt (fun x => subfaceFlux (ctxAt c s (Function.update U b x)) v i)
      (∑ k ∈ range (c.vert v).nCells,
        if b = (c.vert v).cell k then jacValue (ctxAt c s U) junk v i k else 0) (U b) := by
  set f := faceOf c v i with hf
  set G := c.grav (slot (c.vert v) i) with hG
  have hU := update_self' U b
  have htp := ttimesP_hasDerivAt c ok s U hP v i b hs ha.1 hb (U b)
  have hden := denAvg_hasDerivAt c s U b f sm
  set tp := fun x => ttimesP (ctxAt c s (Function.update U b x)) (slot (c.vert v) i) with etp
  set den := fun x => denAvg (ctxAt c s (Function.update U b x)) f with eden
  have tp0 : tp (U b) = ttimesP (ctxAt c s U) (slot (c.vert v) i) := by rw [etp]; simp only [hU]
  have den0 : den (U b) = denAvg (ctxAt c s U) f := by rw [eden]; simp only [hU]
  have hflux : ∀ x, subfaceFlux (ctxAt c s (Function.update U b x)) v i =
      fluxm (ctxAt c s (Function.update U b x)) f (tp x) G := fun x => rfl
  have hTP : jacTP (ctxAt c s U) junk v i = tp (U b) := by
    rw [tp0]; unfold jacTP; exact if_pos ha.2
  -- the entries
  have hval : ∀ k, jacValue (ctxAt c s U) junk v i k =
      -jacEntry (ctxAt c s U) f (tp (U b)) G ((c.vert v).T i k) ((c.vert v).cell k) := by
    intro k
    unfold jacValue
    rw [hTP]; rfl
  have hsumConst : ∀ a : ℝ → ℝ, (∀ k, b = (c.vert v).cell k →
        jacValue (ctxAt c s U) junk v i k = a ((c.vert v).T i k)) →
      (∀ T, a T = a 0 + (a 1 - a 0)*T) →
      (∑ k ∈ range (c.vert v).nCells,
        if b = (c.vert v).cell k then jacValue (ctxAt c s U) junk v i k else 0) =
      (if ∃ k < (c.vert v).nCells, b = (c.vert v).cell k then a (tOf c v i b) else 0) := by
    intro a h1 _
    by_cases hk : ∃ k < (c.vert v).nCells, b = (c.vert v).cell k
    · rw [if_pos hk]
      obtain ⟨k, hk, e⟩ := hk
      have uniq : ∀ k' ∈ range (c.vert v).nCells, k' ≠ k → ¬ b = (c.vert v).cell k' := by
        intro k' hk' hne e'
        exact hne (ok.inj v k' (mem_range.1 hk') k hk (by rw [← e', ← e]))
      rw [sum_eq_single k]
      · rw [if_pos e, h1 k e]
        congr 1
        unfold tOf
        rw [sum_eq_single k]
        · rw [if_pos e]
        · intro k' hk' hne; exact if_neg (uniq k' hk' hne)
        · intro h; exact absurd (mem_range.2 hk) h
      · intro k' hk' hne; exact if_neg (uniq k' hk' hne)
      · intro h; exact absurd (mem_range.2 hk) h
    · rw [if_neg hk]
      refine sum_eq_zero fun k hk' => if_neg ?_
      intro e; exact hk ⟨k, mem_range.1 hk', e⟩
  have notMem : ¬ (∃ k < (c.vert v).nCells, b = (c.vert v).cell k) →
      f.up ≠ b ∧ f.dn ≠ b ∧ tOf c v i b = 0 := by
    intro hk
    refine ⟨?_, ?_, ?_⟩
    · intro e
      obtain ⟨k, h1, h2⟩ := ok.memUp v i hs (by rw [← hf, e]; omega)
      exact hk ⟨k, h1, by rw [← hf, e] at h2; exact_mod_cast h2.symm⟩
    · intro e
      obtain ⟨k, h1, h2⟩ := ok.memDn v i hs (by rw [← hf, e]; omega)
      exact hk ⟨k, h1, by rw [← hf, e] at h2; exact_mod_cast h2.symm⟩
    · unfold tOf
      refine sum_eq_zero fun k hk' => if_neg ?_
      intro e; exact hk ⟨k, mem_range.1 hk', e⟩
  have z : (0.0:ℝ) = 0 := by norm_num
  have hne : f.up ≠ f.dn := ok.ne v i hs
  -- the sign of the driving term does not change nearby
  have hcont : ContinuousAt (fun x => tp x + den x*G) (U b) :=
    htp.continuousAt.add (hden.continuousAt.mul continuousAt_const)
  have hd0 : tp (U b) + den (U b)*G ≠ 0 := by rw [tp0, den0]; exact hdrive
  have hdr : ∀ x, driving (ctxAt c s (Function.update U b x)) f (tp x) G = tp x + den x*G :=
    fun x => rfl
  have hdr0 : driving (ctxAt c s U) f (tp (U b)) G = tp (U b) + den (U b)*G := by
    rw [den0]; rfl
  -- boundary sides do not depend on the pressure of a cell
  have hbnd : ∀ id : ℤ, id < 0 → ∀ x, side (ctxAt c s (Function.update U b x)) id =
      side (ctxAt c s U) id := fun id h x => side_const c s U b x id (by omega)
  rcases lt_or_gt_of_ne hd0 with hneg | hpos
  · -- flow from up to down
    have ev : ∀ᶠ x in nhds (U b), tp x + den x*G < 0 := hcont.eventually (gt_mem_nhds hneg)
    by_cases hsh : f.up < 0 ∧ c.bc = .seepage ∧ (side (ctxAt c s U) f.up).P ≤ c.Pref
    · -- shut
      have shJ : shutJ (ctxAt c s U) f (tp (U b)) G := by
        unfold shutJ; rw [drivingJ_eq, hdr0, z, if_pos hneg]; exact hsh
      have e0 : (fun x => subfaceFlux (ctxAt c s (Function.update U b x)) v i)
          =ᶠ[nhds (U b)] fun _ => (0:ℝ) := by
        filter_upwards [ev] with x hx
        rw [hflux]
        have : shut (ctxAt c s (Function.update U b x)) f (tp x) G := by
          unfold shut; rw [hdr, z, if_pos hx, hbnd f.up hsh.1 x]; exact hsh
        unfold fluxm; rw [if_pos this, z]
      refine ((hasDerivAt_const (U b) (0:ℝ)).congr_of_eventuallyEq e0).congr_deriv ?_
      symm
      refine sum_eq_zero fun k _ => ?_
      rw [hval]
      unfold jacEntry
      rw [if_pos shJ, z]; simp
    · have nshJ : ¬ shutJ (ctxAt c s U) f (tp (U b)) G := by
        unfold shutJ; rw [drivingJ_eq, hdr0, z, if_pos hneg]; exact hsh
      have hmob := mobility_hasDerivAt c s U b f.up sm hvis
      have e0 : (fun x => subfaceFlux (ctxAt c s (Function.update U b x)) v i)
          =ᶠ[nhds (U b)] fun x => den x*((side (ctxAt c s (Function.update U b x)) f.up).Kr/
            (side (ctxAt c s (Function.update U b x)) f.up).vis)*(-tp x) +
            -den x ^ (2:ℕ)*((side (ctxAt c s (Function.update U b x)) f.up).Kr/
            (side (ctxAt c s (Function.update U b x)) f.up).vis)*G := by
        filter_upwards [ev] with x hx
        rw [hflux]
        have : ¬ shut (ctxAt c s (Function.update U b x)) f (tp x) G := by
          unfold shut; rw [hdr, z, if_pos hx]
          rintro ⟨h1, h2, h3⟩
          rw [hbnd f.up h1 x] at h3
          exact hsh ⟨h1, h2, h3⟩
        unfold fluxm; rw [if_neg this]
        unfold ukvr; rw [hdr, z, if_pos hx]
      have D := (formula_hasDerivAt den _ tp G _ _ _ (U b) hden hmob htp).congr_of_eventuallyEq e0
      refine D.congr_deriv ?_
      have uk0 : ukvrJ (ctxAt c s U) f (tp (U b)) G =
          (side (ctxAt c s (Function.update U b (U b))) f.up).Kr/
          (side (ctxAt c s (Function.update U b (U b))) f.up).vis := by
        unfold ukvrJ; rw [drivingJ_eq, hdr0, z, if_pos hneg, hU]
      rw [← uk0]
      have dUp : dukvrUp (ctxAt c s U) f (tp (U b)) G =
          if 0 ≤ f.up then dukvrCell (side (ctxAt c s U) f.up) else 0 := by
        unfold dukvrUp; rw [drivingJ_eq, hdr0, z, if_pos hneg]
      have dDn : dukvrDn (ctxAt c s U) f (tp (U b)) G = 0 := by
        unfold dukvrDn; rw [drivingJ_eq, hdr0, z, if_pos hneg]
      have dJ : denAvgJ (ctxAt c s U) f = den (U b) := by rw [denAvgJ_eq, den0]
      have key := hsumConst (fun T => -jacEntry (ctxAt c s U) f (tp (U b)) G T b)
        (fun k e => by rw [hval, ← e])
        (fun T => by
          unfold jacEntry; dsimp only; rw [if_neg nshJ, if_neg nshJ, if_neg nshJ]
          split_ifs <;> ring)
      rw [key]
      by_cases hk : ∃ k < (c.vert v).nCells, b = (c.vert v).cell k
      · rw [if_pos hk]
        unfold jacEntry
        dsimp only
        rw [if_neg nshJ, dUp, dDn, dJ, uk0]
        by_cases hu : f.up = b
        · have hd : f.dn ≠ b := fun e => hne (by rw [hu, e])
          have p1 : f.up > -1 ∧ (b:ℤ) = f.up := ⟨by rw [hu]; omega, hu.symm⟩
          have p2 : 0 ≤ f.up := by rw [hu]; omega
          have sU : side (ctxAt c s U) f.up = s b (U b) := by
            rw [hu, ← hU, side_self, hU]
          have dd : dden (ctxAt c s U) f.up = 0.5*(s b (U b)).drho := by
            unfold dden ctxAt; rw [if_pos p2, hu]; simp
          rw [if_pos p1, if_pos p2, if_pos hu, if_neg hd, if_pos hu, sU, dd]
          ring
        · have p1 : ¬ (f.up > -1 ∧ (b:ℤ) = f.up) := fun h => hu h.2.symm
          rw [if_neg p1, if_neg hu, if_neg hu]
          by_cases hd : f.dn = b
          · have p3 : f.dn > -1 ∧ (b:ℤ) = f.dn := ⟨by rw [hd]; omega, hd.symm⟩
            have p2 : 0 ≤ f.dn := by rw [hd]; omega
            have dd : dden (ctxAt c s U) f.dn = 0.5*(s b (U b)).drho := by
              unfold dden ctxAt; rw [if_pos p2, hd]; simp
            rw [if_pos p3, if_pos hd, dd]
            ring
          · have p3 : ¬ (f.dn > -1 ∧ (b:ℤ) = f.dn) := fun h => hd h.2.symm
            rw [if_neg p3, if_neg hd]
            ring
      · rw [if_neg hk]
        obtain ⟨h1, h2, h3⟩ := notMem hk
        rw [if_neg h1, if_neg h2, if_neg h1, h3]
        ring
  · -- flow from down to up
    have ev : ∀ᶠ x in nhds (U b), ¬ (tp x + den x*G < 0) := by
      filter_upwards [hcont.eventually (lt_mem_nhds hpos)] with x hx
      exact not_lt.2 (le_of_lt hx)
    have hnn : ¬ (tp (U b) + den (U b)*G < 0) := not_lt.2 (le_of_lt hpos)
    by_cases hsh : f.dn < 0 ∧ c.bc = .seepage ∧ (side (ctxAt c s U) f.dn).P ≤ c.Pref
    · have shJ : shutJ (ctxAt c s U) f (tp (U b)) G := by
        unfold shutJ; rw [drivingJ_eq, hdr0, z, if_neg hnn]; exact hsh
      have e0 : (fun x => subfaceFlux (ctxAt c s (Function.update U b x)) v i)
          =ᶠ[nhds (U b)] fun _ => (0:ℝ) := by
        filter_upwards [ev] with x hx
        rw [hflux]
        have : shut (ctxAt c s (Function.update U b x)) f (tp x) G := by
          unfold shut; rw [hdr, z, if_neg hx, hbnd f.dn hsh.1 x]; exact hsh
        unfold fluxm; rw [if_pos this, z]
      refine ((hasDerivAt_const (U b) (0:ℝ)).congr_of_eventuallyEq e0).congr_deriv ?_
      symm
      refine sum_eq_zero fun k _ => ?_
      rw [hval]
      unfold jacEntry
      rw [if_pos shJ, z]; simp
    · have nshJ : ¬ shutJ (ctxAt c s U) f (tp (U b)) G := by
        unfold shutJ; rw [drivingJ_eq, hdr0, z, if_neg hnn]; exact hsh
      have hmob := mobility_hasDerivAt c s U b f.dn sm hvis
      have e0 : (fun x => subfaceFlux (ctxAt c s (Function.update U b x)) v i)
          =ᶠ[nhds (U b)] fun x => den x*((side (ctxAt c s (Function.update U b x)) f.dn).Kr/
            (side (ctxAt c s (Function.update U b x)) f.dn).vis)*(-tp x) +
            -den x ^ (2:ℕ)*((side (ctxAt c s (Function.update U b x)) f.dn).Kr/
            (side (ctxAt c s (Function.update U b x)) f.dn).vis)*G := by
        filter_upwards [ev] with x hx
        rw [hflux]
        have : ¬ shut (ctxAt c s (Function.update U b x)) f (tp x) G := by
          unfold shut; rw [hdr, z, if_neg hx]
          rintro ⟨h1, h2, h3⟩
          rw [hbnd f.dn h1 x] at h3
          exact hsh ⟨h1, h2, h3⟩
        unfold fluxm; rw [if_neg this]
        unfold ukvr; rw [hdr, z, if_neg hx]
      have D := (formula_hasDerivAt den _ tp G _ _ _ (U b) hden hmob htp).congr_of_eventuallyEq e0
      refine D.congr_deriv ?_
      have uk0 : ukvrJ (ctxAt c s U) f (tp (U b)) G =
          (side (ctxAt c s (Function.update U b (U b))) f.dn).Kr/
          (side (ctxAt c s (Function.update U b (U b))) f.dn).vis := by
        unfold ukvrJ; rw [drivingJ_eq, hdr0, z, if_neg hnn, hU]
      rw [← uk0]
      have dUp : dukvrUp (ctxAt c s U) f (tp (U b)) G = 0 := by
        unfold dukvrUp; rw [drivingJ_eq, hdr0, z, if_neg hnn]
      have dDn : dukvrDn (ctxAt c s U) f (tp (U b)) G =
          if 0 ≤ f.dn then dukvrCell (side (ctxAt c s U) f.dn) else 0 := by
        unfold dukvrDn; rw [drivingJ_eq, hdr0, z, if_neg hnn]
      have dJ : denAvgJ (ctxAt c s U) f = den (U b) := by rw [denAvgJ_eq, den0]
      have key := hsumConst (fun T => -jacEntry (ctxAt c s U) f (tp (U b)) G T b)
        (fun k e => by rw [hval, ← e])
        (fun T => by
          unfold jacEntry; dsimp only; rw [if_neg nshJ, if_neg nshJ, if_neg nshJ]
          split_ifs <;> ring)
      rw [key]
      by_cases hk : ∃ k < (c.vert v).nCells, b = (c.vert v).cell k
      · rw [if_pos hk]
        unfold jacEntry
        dsimp only
        rw [if_neg nshJ, dUp, dDn, dJ, uk0]
        by_cases hu : f.up = b
        · have hd : f.dn ≠ b := fun e => hne (by rw [hu, e])
          have p1 : f.up > -1 ∧ (b:ℤ) = f.up := ⟨by rw [hu]; omega, hu.symm⟩
          have p2 : 0 ≤ f.up := by rw [hu]; omega
          have dd : dden (ctxAt c s U) f.up = 0.5*(s b (U b)).drho := by
            unfold dden ctxAt; rw [if_pos p2, hu]; simp
          rw [if_pos p1, if_pos hu, if_neg hd, if_neg hd, dd]
          ring
        · have p1 : ¬ (f.up > -1 ∧ (b:ℤ) = f.up) := fun h => hu h.2.symm
          rw [if_neg p1, if_neg hu]
          by_cases hd : f.dn = b
          · have p3 : f.dn > -1 ∧ (b:ℤ) = f.dn := ⟨by rw [hd]; omega, hd.symm⟩
            have p2 : 0 ≤ f.dn := by rw [hd]; omega
            have dd : dden (ctxAt c s U) f.dn = 0.5*(s b (U b)).drho := by
              unfold dden ctxAt; rw [if_pos p2, hd]; simp
            have sU : side (ctxAt c s U) f.dn = s b (U b) := by
              rw [hd, ← hU, side_self, hU]
            rw [if_pos p3, if_pos p2, if_pos hd, if_pos hd, sU, dd]
            ring
          · have p3 : ¬ (f.dn > -1 ∧ (b:ℤ) = f.dn) := fun h => hd h.2.symm
            rw [if_neg p3, if_neg hd, if_neg hd]
            ring
      · rw [if_neg hk]
        obtain ⟨h1, h2, h3⟩ := notMem hk
        rw [if_neg h1, if_neg h2, if_neg h2, h3]
        ring

/-! ### The assembled matrices -/

/-- The flow through no subface is about to change direction (subfaces of a Neumann boundary carry
none). -/
def NoSwitch (c : Ctx) (s : Nat → ℝ → Side) (U : Nat → ℝ) : Prop :=
  ∀ v i, IsSubface c v i → active c v i →
    ¬ (c.bc = .neumann ∧ ((faceOf c v i).up < 0 ∨ (faceOf c v i).dn < 0)) →
    driving (ctxAt c s U) (faceOf c v i) (ttimesP (ctxAt c s U) (slot (c.vert v) i))
      (c.grav (slot (c.vert v) i)) ≠ 0

/-- Nothing flows through a Neumann boundary. -/
theorem neumann_flux (c : Ctx) (ok : JacOk c) (v i : Nat) (hs : IsSubface c v i)
    (hl : (c.vert v).isLocal = true)
    (hn : c.bc = .neumann ∧ ((faceOf c v i).up < 0 ∨ (faceOf c v i).dn < 0)) :
    subfaceFlux c v i = 0 := by
  obtain ⟨h1, h2⟩ := ok.neumann v i hs hn.1 hn.2
  have h3 : ttimesP c (slot (c.vert v) i) = 0 := by
    rw [C50_ttimesP_partial c ok v i hs hl]
    exact sum_eq_zero fun j hj => by rw [h1 j (mem_range.1 hj), zero_mul]
  have e : subfaceFlux c v i = fluxm c (faceOf c v i) (ttimesP c (slot (c.vert v) i))
    (c.grav (slot (c.vert v) i)) := rfl
  rw [e, h2, h3]
  unfold fluxm
  split
  · norm_num
  · ring

/-- The flux part of the Jacobian is the derivative of the flux part of the residual. -/
theorem C50_flux_matrix_partial (c : Ctx) (ok : JacOk c) (s : Nat → ℝ → Side) (U : Nat → ℝ)
    (junk : Nat → Nat → ℝ) (a b : Nat) (hb : b < c.numCells)
    (hP : ∀ j x, (s j x).P = x) (sm : Smooth (s b) (U b)) (hvis : (s b (U b)).vis ≠ 0)
    (hsw : NoSwitch c s U) :
    HasDerivAt (fun x => ifunctionVertices (ctxAt c s (Function.update U b x)) (fun _ => 0) a)
      (ijacobianVertices (ctxAt c s U) junk (fun _ _ => 0) a b) (U b) := by
  have e : (fun x => ifunctionVertices (ctxAt c s (Function.update U b x)) (fun _ => 0) a) =
      fun x => ∑ v ∈ range c.numVertices, ∑ i ∈ range (c.vert v).nRows,
        if active c v i then fluxTerm c (faceOf c v i)
          (subfaceFlux (ctxAt c s (Function.update U b x)) v i) a else 0 := by
    funext x
    unfold ifunctionVertices
    rw [vertexLoop_apply, zero_add]
    rfl
  rw [e, ijacobianVertices_apply, zero_add]
  refine HasDerivAt.fun_sum fun v hv => HasDerivAt.fun_sum fun i hi => ?_
  have hs : IsSubface c v i := ⟨mem_range.1 hv, mem_range.1 hi⟩
  have mul : ∀ q : ℝ, fluxTerm c (faceOf c v i) q a =
      ((if 0 ≤ (faceOf c v i).up ∧ c.isLocal (faceOf c v i).up.toNat = true ∧
          a = (faceOf c v i).up.toNat then 1 else 0) +
        (if 0 ≤ (faceOf c v i).dn ∧ c.isLocal (faceOf c v i).dn.toNat = true ∧
          a = (faceOf c v i).dn.toNat then -1 else 0))*q := by
    intro q; unfold fluxTerm; split_ifs <;> ring
  by_cases ha : active c v i
  · simp only [if_pos ha]
    by_cases hn : c.bc = .neumann ∧ ((faceOf c v i).up < 0 ∨ (faceOf c v i).dn < 0)
    · have hz : ∀ x, subfaceFlux (ctxAt c s (Function.update U b x)) v i = 0 := fun x =>
        neumann_flux _ (jacOk_ctxAt c ok s _) v i hs ha.1 hn
      have hj : jacTerm (ctxAt c s U) junk v i a b = 0 := by
        unfold jacTerm; exact if_pos hn
      simp only [hz, hj]
      exact hasDerivAt_const _ _
    · have D := C50_subface_partial c ok s U junk v i b hs ha hb hP sm hvis (hsw v i hs ha hn)
      simp only [mul]
      refine (D.const_mul _).congr_deriv ?_
      have hj : jacTerm (ctxAt c s U) junk v i a b =
        (if 0 ≤ (faceOf c v i).up ∧ c.isLocal (faceOf c v i).up.toNat = true ∧
            a = (faceOf c v i).up.toNat then
          ∑ k ∈ range (c.vert v).nCells,
            if b = (c.vert v).cell k then jacValue (ctxAt c s U) junk v i k else 0 else 0) +
        (if 0 ≤ (faceOf c v i).dn ∧ c.isLocal (faceOf c v i).dn.toNat = true ∧
            a = (faceOf c v i).dn.toNat then
          ∑ k ∈ range (c.vert v).nCells,
            if b = (c.vert v).cell k then -jacValue (ctxAt c s U) junk v i k else 0 else 0) := by
        unfold jacTerm; exact if_neg hn
      have neg : (∑ k ∈ range (c.vert v).nCells,
            if b = (c.vert v).cell k then -jacValue (ctxAt c s U) junk v i k else 0) =
          -∑ k ∈ range (c.vert v).nCells,
            if b = (c.vert v).cell k then jacValue (ctxAt c s U) junk v i k else 0 := by
        rw [← sum_neg_distrib]
        exact sum_congr rfl fun k _ => by split <;> simp
      rw [hj, neg]
      split_ifs <;> ring
  · have h1 : ¬ (0 ≤ (faceOf c v i).up ∧ c.isLocal (faceOf c v i).up.toNat = true) :=
      fun h => ha (ok.touch v i hs (Or.inl h))
    have h2 : ¬ (0 ≤ (faceOf c v i).dn ∧ c.isLocal (faceOf c v i).dn.toNat = true) :=
      fun h => ha (ok.touch v i hs (Or.inr h))
    have hj : jacTerm (ctxAt c s U) junk v i a b = 0 := by
      by_cases hn : c.bc = .neumann ∧ ((faceOf c v i).up < 0 ∨ (faceOf c v i).dn < 0)
      · unfold jacTerm; exact if_pos hn
      · unfold jacTerm
        refine (if_neg hn).trans ?_
        refine (congrArg₂ (· + ·) (if_neg fun h => h1 ⟨h.1, h.2.1⟩)
          (if_neg fun h => h2 ⟨h.1, h.2.1⟩)).trans (add_zero 0)
    simp only [if_neg ha, hj]
    exact hasDerivAt_const _ _

theorem cells_update (s : Nat → ℝ → Side) (U : Nat → ℝ) (b a : Nat) (x : ℝ) (h : a ≠ b)
    (c : Ctx) : (ctxAt c s (Function.update U b x)).cells a = (ctxAt c s U).cells a := by
  unfold ctxAt; dsimp only; rw [Function.update_of_ne h]

theorem cells_self (s : Nat → ℝ → Side) (U : Nat → ℝ) (b : Nat) (x : ℝ)
    (c : Ctx) : (ctxAt c s (Function.update U b x)).cells b = s b x := by
  unfold ctxAt; simp

/-- C45, fully implicit: the diagonal term of the SNES Jacobian is the derivative of the change of
mass in a step. -/
theorem C45_mpfao_snes_accum (c : Ctx) (s : Nat → ℝ → Side) (U : Nat → ℝ) (dtime : ℝ) (b : Nat)
    (sm : Smooth (s b) (U b)) :
    HasDerivAt (fun x => snesAccum (ctxAt c s (Function.update U b x)) dtime b)
      (dmassdP (ctxAt c s U) b*c.vol b*(1.0/dtime)) (U b) := by
  unfold snesAccum
  simp only [cells_self]
  refine ((((sm.rho.mul_const (c.por b)).mul sm.S).mul_const (c.vol b)).div_const dtime).congr_deriv ?_
  unfold dmassdP ctxAt
  dsimp only
  norm_num
  ring

/-- C45, method of lines: when the time derivative changes with the pressure at rate `shift`, the
diagonal term of the TS Jacobian is the derivative of the accumulation term of the residual. -/
theorem C45_mpfao_ts_accum (c : Ctx) (s : Nat → ℝ → Side) (U dpdt : Nat → ℝ) (shift : ℝ) (b : Nat)
    (sm : Smooth (s b) (U b))
    (hS : HasDerivAt (fun x => (s b x).dSdP) (c.d2S b) (U b))
    (hr : HasDerivAt (fun x => (s b x).drho) (c.d2rho b) (U b)) :
    HasDerivAt (fun x => dmassdP (ctxAt c s (Function.update U b x)) b*
        (dpdt b + shift*(x - U b))*c.vol b)
      (tsJacAccum (ctxAt c s U) shift dpdt b) (U b) := by
  have hd : HasDerivAt (fun x => dmassdP (ctxAt c s (Function.update U b x)) b)
      (d2massdP2 (ctxAt c s U) b) (U b) := by
    unfold dmassdP
    simp only [cells_self]
    refine ((((sm.rho.mul_const (0.0:ℝ)).mul sm.S).add ((hr.mul_const (c.por b)).mul sm.S)).add
      ((sm.rho.mul_const (c.por b)).mul hS)).congr_deriv ?_
    unfold d2massdP2 ctxAt
    dsimp only
    norm_num
    ring
  have hu : HasDerivAt (fun x => dpdt b + shift*(x - U b)) shift (U b) := by
    refine ((((hasDerivAt_id (U b)).sub_const (U b)).const_mul shift).const_add (dpdt b)).congr_deriv ?_
    ring
  refine ((hd.mul hu).mul_const (c.vol b)).congr_deriv ?_
  rw [update_self']
  unfold tsJacAccum
  simp only [ctxAt, sub_self, mul_zero, add_zero]
  ring

/-- C50: the Jacobian of the fully implicit residual.  Entry `(a, b)` is the derivative of the
residual of cell `a` with respect to the pressure of cell `b`. -/
theorem C50_snes_matrix_partial (c : Ctx) (ok : JacOk c) (s : Nat → ℝ → Side) (U : Nat → ℝ)
    (junk : Nat → Nat → ℝ) (dtime : ℝ) (accumPrev : Nat → ℝ) (a b : Nat) (hb : b < c.numCells)
    (hP : ∀ j x, (s j x).P = x) (sm : Smooth (s b) (U b)) (hvis : (s b (U b)).vis ≠ 0)
    (hsw : NoSwitch c s U) :
    HasDerivAt (fun x => snesFunction (ctxAt c s (Function.update U b x)) dtime accumPrev a)
      (snesJacobian (ctxAt c s U) junk dtime a b) (U b) := by
  have e : (fun x => snesFunction (ctxAt c s (Function.update U b x)) dtime accumPrev a) =
      fun x => ifunctionVertices (ctxAt c s (Function.update U b x)) (fun _ => 0) a +
        if a < c.numCells ∧ c.isLocal a = true then
          snesAccum (ctxAt c s (Function.update U b x)) dtime a - accumPrev a - c.source a
        else 0 := by
    funext x
    unfold snesFunction
    rw [snesCellLoop_apply]
    rfl
  have eJ : snesJacobian (ctxAt c s U) junk dtime a b =
      ijacobianVertices (ctxAt c s U) junk (fun _ _ => 0) a b +
        if a = b ∧ a < c.numCells ∧ c.isLocal a = true
        then dmassdP (ctxAt c s U) a*c.vol a*(1.0/dtime) else 0 := by
    rw [snesJacobian_apply, ijacobianVertices_apply, zero_add]
    rfl
  rw [e, eJ]
  refine (C50_flux_matrix_partial c ok s U junk a b hb hP sm hvis hsw).add ?_
  by_cases hl : a < c.numCells ∧ c.isLocal a = true
  · simp only [if_pos hl]
    by_cases hab : a = b
    · subst hab
      rw [if_pos ⟨rfl, hl⟩]
      exact ((C45_mpfao_snes_accum c s U dtime a sm).sub_const _).sub_const _
    · rw [if_neg (fun h => hab h.1)]
      have : ∀ x, snesAccum (ctxAt c s (Function.update U b x)) dtime a =
          snesAccum (ctxAt c s U) dtime a := by
        intro x; unfold snesAccum; rw [cells_update s U b a x hab]; rfl
      simp only [this]
      exact hasDerivAt_const _ _
  · simp only [if_neg hl]
    rw [if_neg (fun h => hl h.2)]
    exact hasDerivAt_const _ _

/-- C50: the Jacobian of the method-of-lines residual, `∂R/∂U + shift·∂R/∂U̇`. -/
theorem C50_ts_matrix_partial (c : Ctx) (ok : JacOk c) (s : Nat → ℝ → Side) (U : Nat → ℝ)
    (junk : Nat → Nat → ℝ) (shift : ℝ) (dpdt : Nat → ℝ) (a b : Nat) (hb : b < c.numCells)
    (hP : ∀ j x, (s j x).P = x) (sm : Smooth (s b) (U b)) (hvis : (s b (U b)).vis ≠ 0)
    (hS : HasDerivAt (fun x => (s b x).dSdP) (c.d2S b) (U b))
    (hr : HasDerivAt (fun x => (s b x).drho) (c.d2rho b) (U b))
    (hsw : NoSwitch c s U) :
    HasDerivAt (fun x => tsFunction (ctxAt c s (Function.update U b x))
        (Function.update dpdt b (dpdt b + shift*(x - U b))) a)
      (tsJacobian (ctxAt c s U) junk shift dpdt a b) (U b) := by
  have e : (fun x => tsFunction (ctxAt c s (Function.update U b x))
        (Function.update dpdt b (dpdt b + shift*(x - U b))) a) =
      fun x => ifunctionVertices (ctxAt c s (Function.update U b x)) (fun _ => 0) a +
        if a < c.numCells ∧ c.isLocal a = true then
          dmassdP (ctxAt c s (Function.update U b x)) a*
            Function.update dpdt b (dpdt b + shift*(x - U b)) a*c.vol a - c.source a*c.vol a
        else 0 := by
    funext x
    unfold tsFunction
    rw [tsCellLoop_apply]
    rfl
  have eJ : tsJacobian (ctxAt c s U) junk shift dpdt a b =
      ijacobianVertices (ctxAt c s U) junk (fun _ _ => 0) a b +
        if a = b ∧ a < c.numCells ∧ c.isLocal a = true
        then tsJacAccum (ctxAt c s U) shift dpdt a else 0 := by
    rw [tsJacobian_apply, ijacobianVertices_apply, zero_add]
    rfl
  rw [e, eJ]
  refine (C50_flux_matrix_partial c ok s U junk a b hb hP sm hvis hsw).add ?_
  by_cases hl : a < c.numCells ∧ c.isLocal a = true
  · simp only [if_pos hl]
    by_cases hab : a = b
    · subst hab
      rw [if_pos ⟨rfl, hl⟩]
      simp only [Function.update_self]
      exact (C45_mpfao_ts_accum c s U dpdt shift a sm hS hr).sub_const _
    · rw [if_neg (fun h => hab h.1)]
      have : ∀ x, dmassdP (ctxAt c s (Function.update U b x)) a = dmassdP (ctxAt c s U) a := by
        intro x; unfold dmassdP; rw [cells_update s U b a x hab]; rfl
      simp only [this, Function.update_of_ne hab]
      exact hasDerivAt_const _ _
  · simp only [if_neg hl]
    rw [if_neg (fun h => hl h.2)]
    exact hasDerivAt_const _ _

/-! ### The hypotheses are met -/

/-- A state with density, saturation and mobility that vary with the pressure. -/
def wState (p : ℝ) : Side :=
  { P := p, S := p, Kr := p, vis := 1, rho := 1 + p, dSdP := 1, dKrdS := 1, dvis := 0, drho := 1 }

theorem wState_smooth (p : ℝ) : Smooth wState p :=
  ⟨fun _ => rfl, hasDerivAt_id p,
    (hasDerivAt_id p).congr_deriv (by simp [wState]), hasDerivAt_const p (1:ℝ),
    (hasDerivAt_id p).const_add 1⟩

def wU : Nat → ℝ
  | 0 => 5
  | _ => 3

theorem wJacOk : JacOk FluxWitness.c := by
  have hr : ∀ v i, IsSubface FluxWitness.c v i → v = 0 ∧ (i = 0 ∨ i = 1) := by
    intro v i h
    have h1 : v < 1 := h.1
    have h2 : i < 2 := h.2
    omega
  refine ⟨?_, ?_, ?_, ?_, ?_, ?_, ?_, ?_, ?_, ?_, ?_, ?_⟩
  · intro v i v' i' h h' e
    obtain ⟨rfl, hi⟩ := hr v i h
    obtain ⟨rfl, hi'⟩ := hr v' i' h'
    simp [slot, FluxWitness.c, FluxWitness.v] at e
    exact ⟨rfl, e⟩
  · intro v i _; rfl
  · intro v; simp [FluxWitness.c, FluxWitness.v]
  · intro v k hk
    exact ⟨rfl, hk⟩
  · intro v i _ k _; rfl
  · intro v j hj hj'
    exact ⟨hj', hj⟩
  · intro v k _ k' _ e; exact e
  · intro v i h
    obtain ⟨rfl, rfl | rfl⟩ := hr v i h <;> simp [faceOf, FluxWitness.c, FluxWitness.v, FluxWitness.face]
  · intro v i h _
    obtain ⟨rfl, rfl | rfl⟩ := hr v i h
    · exact ⟨0, by simp [FluxWitness.c, FluxWitness.v], rfl⟩
    · exact ⟨1, by simp [FluxWitness.c, FluxWitness.v], rfl⟩
  · intro v i h h0
    obtain ⟨rfl, rfl | rfl⟩ := hr v i h
    · exact ⟨1, by simp [FluxWitness.c, FluxWitness.v], rfl⟩
    · simp [faceOf, FluxWitness.c, FluxWitness.v, FluxWitness.face] at h0
  · intro v i h _
    obtain ⟨rfl, rfl | rfl⟩ := hr v i h <;> exact ⟨rfl, rfl⟩
  · intro v i _ h
    exact absurd h (by simp [FluxWitness.c])

/-- Non-vacuity: two cells and a Dirichlet boundary, with flow through both faces. -/
example : JacOk FluxWitness.c ∧ NoSwitch FluxWitness.c (fun _ => wState) wU ∧
    snesJacobian (ctxAt FluxWitness.c (fun _ => wState) wU) (fun _ _ => 0) 1 1 0 ≠ 0 := by
  have t0 : ttimesP (ctxAt FluxWitness.c (fun _ => wState) wU) 0 = -2 := by
    simp [ttimesP, transMat_apply, wslot, ctxAt, FluxWitness.c, FluxWitness.v, slot, FluxWitness.M, pVec, wState, wU,
      FluxWitness.s, sum_range_succ]; norm_num
  have t4 : ttimesP (ctxAt FluxWitness.c (fun _ => wState) wU) 4 = -1 := by
    simp [ttimesP, transMat_apply, wslot, ctxAt, FluxWitness.c, FluxWitness.v, slot, FluxWitness.M, pVec, wState, wU,
      FluxWitness.s, sum_range_succ]; norm_num
  refine ⟨wJacOk, ?_, ?_⟩
  · intro v i h _ _
    have h1 : v < 1 := h.1
    have h2 : i < 2 := h.2
    have hv : v = 0 := by omega
    have hi : i = 0 ∨ i = 1 := by omega
    subst hv
    rcases hi with rfl | rfl
    · have : slot (FluxWitness.c.vert 0) 0 = 0 := rfl
      rw [this, t0]
      simp [driving, FluxWitness.c]
    · have : slot (FluxWitness.c.vert 0) 1 = 4 := rfl
      rw [this, t4]
      simp [driving, FluxWitness.c]
  · rw [snesJacobian_apply]
    have n : (ctxAt FluxWitness.c (fun _ => wState) wU).numVertices = 1 := rfl
    have m : ((ctxAt FluxWitness.c (fun _ => wState) wU).vert 0).nRows = 2 := rfl
    rw [n, sum_range_one, m, sum_range_succ, sum_range_one]
    have s0 : slot ((ctxAt FluxWitness.c (fun _ => wState) wU).vert 0) 0 = 0 := rfl
    have s1 : slot ((ctxAt FluxWitness.c (fun _ => wState) wU).vert 0) 1 = 4 := rfl
    have j0 : jacTP (ctxAt FluxWitness.c (fun _ => wState) wU) (fun _ _ => 0) 0 0 = -2 := by
      rw [← t0]; rfl
    have j1 : jacTP (ctxAt FluxWitness.c (fun _ => wState) wU) (fun _ _ => 0) 0 1 = -1 := by
      rw [← t4]; rfl
    simp only [jacTerm, jacValue, j0, j1]
    simp [jacEntry, shutJ, drivingJ, denAvgJ, ukvrJ, dukvrUp, dukvrDn,
      dden, dukvrCell, side, ctxAt, FluxWitness.c, FluxWitness.v, FluxWitness.face, FluxWitness.M, wState, wU,
      FluxWitness.s, faceOf, sum_range_succ]
    norm_num

/-! ### Corners

At the corners of the domain the numbers of the parts of a face need not be those under which the
rows are written (C146). -/

/-- A subface that reads the entry written by another one has the flux of that one. -/
theorem C146_row_of_another (c : Ctx) (v i v' i' : Nat) (hs : IsSubface c v' i')
    (hl : (c.vert v').isLocal = true)
    (once : ∀ w j, IsSubface c w j → wslot (c.vert w) j = wslot (c.vert v') i' → w = v' ∧ j = i')
    (hcol : ∀ j < (c.vert v').nCols, (c.vert v').col j < c.numCells + c.numBnd)
    (e : slot (c.vert v) i = wslot (c.vert v') i') :
    ttimesP c (slot (c.vert v) i) =
      ∑ j ∈ range (c.vert v').nCols, (c.vert v').M i' j*pVec c ((c.vert v').col j) := by
  have row : ∀ b, transMat c (slot (c.vert v) i) b =
      ∑ j ∈ range (c.vert v').nCols, if b = (c.vert v').col j then (c.vert v').M i' j else 0 := by
    intro b
    rw [transMat_apply, sum_eq_single v', sum_eq_single i']
    · rw [if_pos hl]
      exact sum_congr rfl fun j _ => by simp [e]
    · intro k hk hne
      rw [if_pos hl]
      refine sum_eq_zero fun j _ => if_neg ?_
      rintro ⟨e', _⟩
      exact hne (once v' k ⟨hs.1, mem_range.1 hk⟩ (e'.symm.trans e)).2
    · intro h; exact absurd (mem_range.2 hs.2) h
    · intro w hw hne
      refine sum_eq_zero fun k hk => ?_
      split
      · refine sum_eq_zero fun j _ => if_neg ?_
        rintro ⟨e', _⟩
        exact hne (once w k ⟨mem_range.1 hw, mem_range.1 hk⟩ (e'.symm.trans e)).1
      · rfl
    · intro h; exact absurd (mem_range.2 hs.1) h
  unfold ttimesP
  simp only [row, sum_mul]
  rw [sum_comm]
  refine sum_congr rfl fun j hj => ?_
  rw [sum_eq_single ((c.vert v').col j)]
  · simp
  · intro b _ hb; simp [hb]
  · intro h; exact absurd (mem_range.2 (hcol j (mem_range.1 hj))) h

namespace StrayWitness

/-- Transmissibilities from the cell (column 0) and the boundary face (column 1). -/
def M (t : ℝ) : Nat → Nat → ℝ
  | 0, 0 => t
  | 0, 1 => -t
  | _, _ => 0

/-- One part of the only face. -/
def vert (t : ℝ) (sub wsub : Nat) : Vert :=
  { isLocal := true, nRows := 1, face := fun _ => 0, subface := fun _ => sub, wsub := fun _ => wsub
    nCells := 1, cell := id, T := M t, nCols := 2, col := id, M := M t }

/-- One cell and one boundary face at pressure 2, oriented into the cell.  Vertex 0 is a corner: its
row, with transmissibility 1, is written at place 3 of the face and read at place 0, which is that of
vertex 1, with transmissibility 2. -/
def c : Ctx :=
  { numVertices := 2, numCells := 1, numBnd := 1
    vert := fun v => match v with
      | 0 => vert 1 0 3
      | _ => vert 2 0 0
    face := fun _ => ⟨-1, 0, true⟩
    isLocal := fun _ => true, vol := fun _ => 1, por := fun _ => 1, source := fun _ => 0
    cells := fun _ => FluxWitness.s 5
    d2S := fun _ => 0, d2rho := fun _ => 0, bnds := fun _ => FluxWitness.s 2, bc := .dirichlet
    Pref := 0, grav := fun _ => 0 }

def state (p : ℝ) : Side := FluxWitness.s p

def at' (p : ℝ) : Ctx := ctxAt c (fun _ => state) (fun _ => p)

theorem tp (p : ℝ) : ttimesP (at' p) 0 = 2*(p - 2) ∧ ttimesP (at' p) 3 = p - 2 := by
  constructor <;>
  · simp [ttimesP, transMat_apply, wslot, at', ctxAt, c, vert, M, pVec, state, FluxWitness.s,
      sum_range_succ]
    ring

theorem flux (p : ℝ) (v : Nat) : subfaceFlux (at' p) v 0 = -(2*(p - 2)) := by
  have h : subfaceFlux (at' p) v 0 = fluxm (at' p) ⟨-1, 0, true⟩ (ttimesP (at' p) 0) 0 := by
    rcases v with _ | v <;> rfl
  rw [h, (tp p).1]
  unfold fluxm
  rw [if_neg (by unfold shut; split_ifs <;> simp [at', ctxAt, c])]
  have k : ukvr (at' p) ⟨-1, 0, true⟩ (2*(p - 2)) 0 = 1 := by
    unfold ukvr; split_ifs <;> simp [side, at', ctxAt, c, state, FluxWitness.s]
  rw [k]
  simp [denAvg, side, at', ctxAt, c, state, FluxWitness.s]
  norm_num

theorem residual (p : ℝ) : ifunctionVertices (at' p) (fun _ => 0) 0 = 4*(p - 2) := by
  unfold ifunctionVertices
  rw [vertexLoop_apply]
  have n : (at' p).numVertices = 2 := rfl
  have r0 : ((at' p).vert 0).nRows = 1 := rfl
  have r1 : ((at' p).vert 1).nRows = 1 := rfl
  rw [n, sum_range_succ, sum_range_one, r0, r1, sum_range_one, sum_range_one, flux, flux]
  have a0 : active (at' p) 0 0 := ⟨rfl, rfl⟩
  have a1 : active (at' p) 1 0 := ⟨rfl, rfl⟩
  rw [if_pos a0, if_pos a1]
  have f0 : faceOf (at' p) 0 0 = ⟨-1, 0, true⟩ := rfl
  have f1 : faceOf (at' p) 1 0 = ⟨-1, 0, true⟩ := rfl
  rw [f0, f1]
  simp [fluxTerm, at', ctxAt, c]
  ring

theorem matrix (p : ℝ) : ijacobianVertices (at' p) (fun _ _ => 0) (fun _ _ => 0) 0 0 = 3 := by
  rw [ijacobianVertices_apply]
  have n : (at' p).numVertices = 2 := rfl
  have r0 : ((at' p).vert 0).nRows = 1 := rfl
  have r1 : ((at' p).vert 1).nRows = 1 := rfl
  rw [n, sum_range_succ, sum_range_one, r0, r1, sum_range_one, sum_range_one]
  have val : ∀ v t TP, jacEntry (at' p) ⟨-1, 0, true⟩ TP 0 t v = t := by
    intro v t TP
    have s0 : ¬ shutJ (at' p) ⟨-1, 0, true⟩ TP 0 := by
      unfold shutJ; split_ifs <;> simp [at', ctxAt, c]
    have k : ukvrJ (at' p) ⟨-1, 0, true⟩ TP 0 = 1 := by
      unfold ukvrJ; split_ifs <;> simp [side, at', ctxAt, c, state, FluxWitness.s]
    have d : dukvrDn (at' p) ⟨-1, 0, true⟩ TP 0 = 0 := by
      unfold dukvrDn; split_ifs <;>
        norm_num [dukvrCell, side, at', ctxAt, c, state, FluxWitness.s]
    have e : denAvgJ (at' p) ⟨-1, 0, true⟩ = 1 := by
      simp [denAvgJ, side, at', ctxAt, c, state, FluxWitness.s]; norm_num
    have g : dden (at' p) 0 = 0 := by
      simp [dden, at', ctxAt, c, state, FluxWitness.s]
    unfold jacEntry
    dsimp only
    rw [if_neg s0, k, d, e, g]
    split_ifs <;> simp_all
  have v0 : jacValue (at' p) (fun _ _ => 0) 0 0 0 = -1 := by
    have : jacValue (at' p) (fun _ _ => 0) 0 0 0 =
      -jacEntry (at' p) ⟨-1, 0, true⟩ (jacTP (at' p) (fun _ _ => 0) 0 0) 0 1 0 := rfl
    rw [this, val]
  have v1 : jacValue (at' p) (fun _ _ => 0) 1 0 0 = -2 := by
    have : jacValue (at' p) (fun _ _ => 0) 1 0 0 =
      -jacEntry (at' p) ⟨-1, 0, true⟩ (jacTP (at' p) (fun _ _ => 0) 1 0) 0 2 0 := rfl
    rw [this, val]
  have f0 : faceOf (at' p) 0 0 = ⟨-1, 0, true⟩ := rfl
  have f1 : faceOf (at' p) 1 0 = ⟨-1, 0, true⟩ := rfl
  have c0 : ((at' p).vert 0).nCells = 1 := rfl
  have c1 : ((at' p).vert 1).nCells = 1 := rfl
  have b : (at' p).bc = .dirichlet := rfl
  have l0 : ((at' p).vert 0).cell 0 = 0 := rfl
  have l1 : ((at' p).vert 1).cell 0 = 0 := rfl
  have q : (at' p).isLocal 0 = true := rfl
  simp only [jacTerm, f0, f1, c0, c1, b, sum_range_one, v0, v1, l0, l1]
  simp [q]
  norm_num

end StrayWitness

/-- The flux through the corner's part of the face is that through the part of the other vertex, its
own is left out: the cell loses 4 per unit of pressure, the transmissibilities add up to 3. -/
theorem C146_flux_violated : ∃ (c : Ctx) (s : ℝ → Side),
    (∀ v < c.numVertices, ∑ j ∈ range (c.vert v).nCols, (c.vert v).M 0 j = 0) ∧
    ∑ v ∈ range c.numVertices, (c.vert v).M 0 0 = 3 ∧
    ∀ p, ifunctionVertices (ctxAt c (fun _ => s) (fun _ => p)) (fun _ => 0) 0 = 4*(p - 2) := by
  refine ⟨StrayWitness.c, StrayWitness.state, ?_, ?_, StrayWitness.residual⟩
  · intro v hv
    have : v = 0 ∨ v = 1 := by
      have : v < 2 := hv
      omega
    rcases this with rfl | rfl <;>
      simp [StrayWitness.c, StrayWitness.vert, StrayWitness.M, sum_range_succ]
  · simp [StrayWitness.c, StrayWitness.vert, StrayWitness.M, sum_range_succ]
    norm_num

/-- The Jacobian is not the derivative of the residual where a corner reads the row of another
vertex. -/
theorem C50_corner_violated : ∃ (c : Ctx) (s : ℝ → Side), (∀ x, (s x).P = x) ∧
    (∀ x, Smooth s x) ∧ ∀ p,
    HasDerivAt (fun x => ifunctionVertices (ctxAt c (fun _ => s) (fun _ => x)) (fun _ => 0) 0) 4 p ∧
    ijacobianVertices (ctxAt c (fun _ => s) (fun _ => p)) (fun _ _ => 0) (fun _ _ => 0) 0 0 = 3 := by
  refine ⟨StrayWitness.c, StrayWitness.state, fun _ => rfl, fun x => ?_, fun p => ⟨?_, StrayWitness.matrix p⟩⟩
  · exact ⟨fun _ => rfl, hasDerivAt_const x (1:ℝ),
      (hasDerivAt_const x (1:ℝ)).congr_deriv (by simp [StrayWitness.state, FluxWitness.s]),
      hasDerivAt_const x (1:ℝ), hasDerivAt_const x (1:ℝ)⟩
  · have e : (fun x => ifunctionVertices (ctxAt StrayWitness.c (fun _ => StrayWitness.state)
        (fun _ => x)) (fun _ => 0) 0) = fun x => 4*(x - 2) := funext StrayWitness.residual
    rw [e]
    simpa using ((hasDerivAt_id p).sub_const 2).const_mul 4

/-- Non-vacuity of `C146_row_of_another`: the corner reads the row of vertex 1. -/
example : IsSubface StrayWitness.c 1 0 ∧
    slot (StrayWitness.c.vert 0) 0 = wslot (StrayWitness.c.vert 1) 0 ∧
    wslot (StrayWitness.c.vert 0) 0 ≠ wslot (StrayWitness.c.vert 1) 0 := by
  refine ⟨⟨by simp [StrayWitness.c], by simp [StrayWitness.c, StrayWitness.vert]⟩, rfl, ?_⟩
  simp [wslot, StrayWitness.c, StrayWitness.vert]

end

end TDy.Mpfao.Props
