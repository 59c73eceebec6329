import Verif.Spec.MpfaoVelocity
import Verif.Props.MpfaoSteady
import Verif.Proofs.MpfaoCoupled
import Mathlib.Tactic.FieldSimp
import Mathlib.Tactic.IntervalCases

/-!
# C131, C132, C133: velocities recovered from the pressures of the MPFA-O method
-/

namespace TDy.Mpfao.Props

open TDy.Mpfao TDy.Mpfao.Spec
open Finset

namespace Velocity

/-! ### The pressures of the boundary faces -/

/-- The list gathered by the first `n` cells. -/
def upTo (m : VelIn) (w : VVert) (n : Nat) : List (Nat × Nat) :=
  (List.range n).flatMap fun i =>
    (((List.range 3).map (w.subFace i)).filter fun f => m.internal f = false).map fun f => (i, f)

/-- `pBoundary` holds the pressures of the faces in a list. -/
def Holds (m : VelIn) (w : VVert) (l : List (Nat × Nat)) (st : Nat × (Nat → ℝ)) : Prop :=
  st.1 = l.length ∧ ∀ k, k < l.length → ∀ q, l[k]? = some q → st.2 k = bndPressure m w q.1 q.2

theorem holds_step {m : VelIn} {w : VVert} {l} {st} (h : Holds m w l st) (i f : Nat) :
    Holds m w (l ++ (([w.subFace i f].filter fun f => m.internal f = false).map fun f => (i, f)))
      (gatherPStep m w i f st) := by
  obtain ⟨h1, h2⟩ := h
  unfold gatherPStep
  cases hI : m.internal (w.subFace i f)
  · simp only [Bool.false_eq_true, if_false]
    simp only [hI, decide_true, List.filter_cons_of_pos, List.filter_nil, List.map_cons,
      List.map_nil]
    refine ⟨by simp [h1], ?_⟩
    intro k hk q hq
    rcases Nat.lt_or_ge k l.length with hlt | hge
    · rw [List.getElem?_append_left hlt] at hq
      dsimp only
      rw [wr_other _ _ (by omega)]
      exact h2 k hlt q hq
    · have hk' : k = l.length := by simp at hk; omega
      subst hk'
      simp at hq
      subst hq
      dsimp only
      rw [← h1, wr_same]
  · simp only [if_true]
    simp only [List.filter_cons, hI, Bool.true_eq_false, decide_false, Bool.false_eq_true, if_false,
      List.filter_nil, List.map_nil, List.append_nil]
    exact ⟨h1, h2⟩

theorem holds_cell {m : VelIn} {w : VVert} {l} {st} (h : Holds m w l st) (i : Nat) :
    Holds m w (l ++ ((((List.range 3).map (w.subFace i)).filter
      fun f => m.internal f = false).map fun f => (i, f)))
      (forN 3 (fun f st => gatherPStep m w i f st) st) := by
  have := holds_step (holds_step (holds_step h i 0) i 1) i 2
  rw [List.append_assoc, List.append_assoc, ← List.map_append, ← List.map_append,
    ← List.filter_append, ← List.filter_append] at this
  exact this

theorem holds_from (m : VelIn) (w : VVert) (a : Nat → ℝ) : Holds m w (bndFaces m w)
    (forN w.nCells (fun i st => forN 3 (fun f st => gatherPStep m w i f st) st) (0, a)) := by
  refine forN_invariant w.nCells _ _ (fun n st => Holds m w (upTo m w n) st) ?_ ?_
  · exact ⟨rfl, fun k hk => absurd hk (by simp [upTo])⟩
  · intro i st _ h
    have := holds_cell h i
    have e : upTo m w (i + 1) = upTo m w i ++ ((((List.range 3).map (w.subFace i)).filter
        fun f => m.internal f = false).map fun f => (i, f)) := by
      unfold upTo
      generalize (List.range 3) = l3
      rw [List.range_succ, List.flatMap_append]
      simp
    rw [e]
    exact this

theorem holds_all (m : VelIn) (w : VVert) : Holds m w (bndFaces m w) (gatherP m w) :=
  holds_from m w _

theorem gatherP_eq (m : VelIn) (w : VVert) {k : Nat} (hk : k < (bndFaces m w).length) :
    (gatherP m w).2 k = pressureAt m w k := by
  have h := (holds_all m w).2 k hk _ (List.getElem?_eq_getElem hk)
  rw [h]
  unfold bndPressure pressureAt
  rw [List.getElem?_eq_getElem hk]
  cases m.bndP <;> rfl

/-! ### The velocity of a row -/

theorem cellPart_eq (m : VelIn) (w : VVert) (i : Nat) :
    cellPart m w i = (-∑ k ∈ range w.nCells, w.T i k*potential m (w.cell k))/m.area (w.face i) := by
  have h := forN_additive (fun x : ℝ => x)
    (fun k => -w.T i k*potential m (w.cell k)/m.area (w.face i))
    (fun k x => x + -w.T i k*potential m (w.cell k)/m.area (w.face i)) w.nCells 0.0
    (fun _ _ _ => rfl)
  unfold cellPart
  rw [h, lit_zero, zero_add, ← sum_neg_distrib, sum_div]
  exact sum_congr rfl fun k _ => by ring

theorem sharedPart_eq (m : VelIn) (w : VVert) (i : Nat) (hb : (bndFaces m w).length = w.nBnd) :
    sharedPart m w i = rate m w i/m.area (w.face i) := by
  have h := forN_additive (fun x : ℝ => x)
    (fun k => -w.T i (k + w.nCells)*(gatherP m w).2 k/m.area (w.face i))
    (fun k x => x + -w.T i (k + w.nCells)*(gatherP m w).2 k/m.area (w.face i)) w.nBnd
    (cellPart m w i) (fun _ _ _ => rfl)
  unfold sharedPart
  rw [h, cellPart_eq, rate, neg_add, add_div, ← sum_neg_distrib (f := fun k => w.T i (w.nCells + k)*_),
    sum_div]
  congr 1
  refine sum_congr rfl fun k hk => ?_
  rw [gatherP_eq m w (by rw [hb]; exact mem_range.1 hk), Nat.add_comm k]
  ring

theorem cellPart_rate (m : VelIn) (w : VVert) (i : Nat) (hb : w.nBnd = 0) :
    cellPart m w i = rate m w i/m.area (w.face i) := by
  rw [cellPart_eq, rate, hb, sum_range_zero, add_zero]

/-- The corner velocity has the wrong sign. -/
theorem cornerPart_eq (m : VelIn) (w : VVert) (i : Nat) :
    cornerPart m w i = -cornerRate m w i/m.area (w.subFace 0 i) := by
  unfold cornerPart cornerRate
  simp only [forN, sum_range_succ, sum_range_zero]
  split <;> · rw [lit_zero, show (1.0:ℝ) = 1 by norm_num]; ring

/-! ### The loops -/

variable {m : VelIn}

/-- Every velocity `x` of a face `g` adds `a g x` to `φ`. -/
def Adds (m : VelIn) (φ : VelSt → ℝ) (a : Nat → ℝ → ℝ) : Prop :=
  ∀ v c g x s, φ (addVel m v c g x s) = φ s + a g x

/-- The contribution of a face, if it is local. -/
noncomputable def part (m : VelIn) (a : Nat → ℝ → ℝ) (g : Nat) (x : ℝ) : ℝ :=
  if (m.face g).isLocal = true then a g x else 0

theorem guarded {φ a} (ha : Adds m φ a) (v : Nat) (c : ℤ) (g : Nat) (x : ℝ) (s : VelSt) :
    φ (if !(m.face g).isLocal then s else addVel m v c g x s) = φ s + part m a g x := by
  unfold part
  cases (m.face g).isLocal
  · simp
  · simpa using ha v c g x s

theorem internal_adds {φ a} (ha : Adds m φ a) (v : Nat) (s : VelSt) :
    φ (velInternal m v s) = φ s + ∑ i ∈ range (m.vert v).nFaces,
      if (m.vert v).nBnd = 0 then
        part m a ((m.vert v).face i) (rate m (m.vert v) i/m.area ((m.vert v).face i)) else 0 := by
  unfold velInternal
  by_cases hb : (m.vert v).nBnd = 0
  · dsimp only
    rw [if_pos hb]
    refine forN_additive φ _ _ _ s fun i _ s => ?_
    rw [guarded ha, if_pos hb, cellPart_rate _ _ _ hb]
  · dsimp only
    rw [if_neg hb, sum_eq_zero fun i _ => if_neg hb, add_zero]

/-- The vertex contributes in the loop over the boundary vertices. -/
abbrev SharedV (w : VVert) : Prop := w.nBnd ≠ 0 ∧ 2 ≤ w.nCells ∧ w.isLocal = true

theorem shared_adds {φ a} (ha : Adds m φ a) (v : Nat) (hle : (m.vert v).nBnd ≤ (m.vert v).nFaces)
    (hb : RowsV (m.vert v) → (bndFaces m (m.vert v)).length = (m.vert v).nBnd) (s : VelSt) :
    φ (velShared m v s) = φ s + ∑ i ∈ range (m.vert v).nFaces,
      if SharedV (m.vert v) then
        part m a ((m.vert v).face i) (rate m (m.vert v) i/m.area ((m.vert v).face i)) else 0 := by
  unfold velShared
  dsimp only
  by_cases hc : (m.vert v).nBnd = 0 ∨ (m.vert v).nCells < 2 ∨ (m.vert v).isLocal = false
  · rw [if_pos hc, sum_eq_zero fun i _ => if_neg fun h => ?_, add_zero]
    rcases hc with hc | hc | hc
    · exact h.1 hc
    · have := h.2.1; omega
    · exact absurd (hc.symm.trans h.2.2) (by decide)
  · rw [if_neg hc]
    push Not at hc
    obtain ⟨h1, h2, h3⟩ := hc
    have h3' : (m.vert v).isLocal = true := by
      cases h : (m.vert v).isLocal
      · exact absurd h h3
      · rfl
    have hcnt := hb (Or.inr ⟨h2, h3'⟩)
    have row : ∀ (c : ℤ) i (s : VelSt), φ (if !(m.face ((m.vert v).face i)).isLocal then s
        else addVel m v c ((m.vert v).face i) (sharedPart m (m.vert v) i) s) = φ s +
          part m a ((m.vert v).face i) (rate m (m.vert v) i/m.area ((m.vert v).face i)) := by
      intro c i s
      rw [guarded ha, sharedPart_eq _ _ _ hcnt]
    have outer := forN_additive φ
      (fun i => part m a ((m.vert v).face (i + ((m.vert v).nFaces - (m.vert v).nBnd)))
        (rate m (m.vert v) (i + ((m.vert v).nFaces - (m.vert v).nBnd))/
          m.area ((m.vert v).face (i + ((m.vert v).nFaces - (m.vert v).nBnd)))))
      (fun i s => velOuter m v (i + ((m.vert v).nFaces - (m.vert v).nBnd)) s) (m.vert v).nBnd
      (forN ((m.vert v).nFaces - (m.vert v).nBnd) (fun i s => velInner m v i s) s)
      (fun i _ s => row _ _ s)
    have inner := forN_additive φ
      (fun i => part m a ((m.vert v).face i) (rate m (m.vert v) i/m.area ((m.vert v).face i)))
      (fun i s => velInner m v i s) ((m.vert v).nFaces - (m.vert v).nBnd) s (fun i _ s => row _ _ s)
    rw [outer, inner]
    conv_rhs => rw [show (m.vert v).nFaces = ((m.vert v).nFaces - (m.vert v).nBnd) +
      (m.vert v).nBnd by omega, sum_range_add]
    rw [add_assoc]
    congr 2
    · exact sum_congr rfl fun i _ => (if_pos ⟨h1, h2, h3'⟩).symm
    · refine sum_congr rfl fun i _ => ?_
      rw [if_pos ⟨h1, h2, h3'⟩, Nat.add_comm i]

theorem corner_adds {φ a} (ha : Adds m φ a) (v : Nat) (s : VelSt) :
    φ (velCorner m v s) = φ s + ∑ i ∈ range 3,
      if CornerV (m.vert v) then part m a ((m.vert v).subFace 0 i)
        (-cornerRate m (m.vert v) i/m.area ((m.vert v).subFace 0 i)) else 0 := by
  unfold velCorner
  dsimp only
  by_cases hc : (m.vert v).nBnd = 0 ∨ (m.vert v).nCells > 1
  · rw [if_pos hc, sum_eq_zero fun i _ => if_neg fun h => ?_, add_zero]
    rcases hc with hc | hc
    · exact h.1 hc
    · have := h.2; omega
  · rw [if_neg hc]
    push Not at hc
    refine forN_additive φ _ _ _ s fun i _ s => ?_
    rw [guarded ha, if_pos hc, cornerPart_eq]

/-- What is in the arrays after the velocities are reset. -/
theorem reset_vel (n : Nat) (a : Nat → ℝ) (f : Nat) :
    forN n (fun f a => wr a f 0.0) a f = if f < n then 0 else a f := by
  have := forN_fill n (fun _ => (0.0 : ℝ)) a f
  rw [lit_zero] at this
  rw [lit_zero]
  exact this

theorem recover_adds {φ a} (ok : VelOk m) (ha : Adds m φ a) (s : VelSt) :
    φ (recoverVelocity m s) =
      φ ⟨forN m.numFaces (fun f a => wr a f 0.0) s.vel, s.cnt, 0.0, 0⟩ +
      (∑ v ∈ range m.numVertices, ∑ i ∈ range (m.vert v).nFaces, if RowsV (m.vert v) then
        part m a ((m.vert v).face i) (rate m (m.vert v) i/m.area ((m.vert v).face i)) else 0) +
      ∑ v ∈ range m.numVertices, ∑ i ∈ range 3, if CornerV (m.vert v) then
        part m a ((m.vert v).subFace 0 i)
          (-cornerRate m (m.vert v) i/m.area ((m.vert v).subFace 0 i)) else 0 := by
  unfold recoverVelocity
  dsimp only
  rw [forN_additive φ _ _ _ _ (fun v hv s => shared_adds ha v (ok.bnd_le v hv) (ok.bnd_count v hv) s),
    forN_additive φ _ _ _ _ (fun v hv s => corner_adds ha v s),
    forN_additive φ _ _ _ _ (fun v hv s => internal_adds ha v s)]
  rw [add_right_comm, add_assoc (φ _), ← sum_add_distrib]
  congr 2
  refine sum_congr rfl fun v _ => ?_
  rw [← sum_add_distrib]
  refine sum_congr rfl fun i _ => ?_
  by_cases h0 : (m.vert v).nBnd = 0
  · rw [if_pos h0, if_neg (fun h : SharedV _ => h.1 h0), if_pos (Or.inl h0), add_zero]
  · rw [if_neg h0, zero_add]
    by_cases h : 2 ≤ (m.vert v).nCells ∧ (m.vert v).isLocal = true
    · rw [if_pos (show SharedV _ from ⟨h0, h⟩), if_pos (Or.inr h)]
    · rw [if_neg (fun k : SharedV _ => h k.2), if_neg (fun k : RowsV _ => k.elim h0 h)]

theorem adds_vel (m : VelIn) (f : Nat) :
    Adds m (fun s => s.vel f) (fun g x => if g = f then x else 0) := by
  intro v c g x s
  unfold addVel
  dsimp only
  by_cases h : g = f
  · subst h; simp
  · rw [wr_other _ _ (Ne.symm h), if_neg h, add_zero]

theorem adds_cnt (m : VelIn) (f : Nat) :
    Adds m (fun s => (s.cnt f : ℝ)) (fun g _ => if g = f then 1 else 0) := by
  intro v c g x s
  unfold addVel
  dsimp only
  by_cases h : g = f
  · subst h; simp
  · rw [wr_other _ _ (Ne.symm h), if_neg h, add_zero]

end Velocity

open Velocity

variable {m : VelIn}

/-! ### C131: the velocity of a face -/

/-- The velocity of a local face times its area: the rates of the rows of the vertices, **minus**
those of the corners of the domain. -/
theorem C131_formula (ok : VelOk m) (s : VelSt) {f : Nat} (hf : f < m.numFaces)
    (hl : (m.face f).isLocal = true) (ha : m.area f ≠ 0) :
    m.area f*(recoverVelocity m s).vel f
      = overRows m f (rate m) - overCorners m f (cornerRate m) := by
  have h := recover_adds ok (adds_vel m f) s
  dsimp only at h
  rw [h, reset_vel, if_pos hf, zero_add, mul_add, overRows, overCorners, sub_eq_add_neg,
    ← sum_neg_distrib, mul_sum, mul_sum]
  congr 1
  · refine sum_congr rfl fun v _ => ?_
    rw [mul_sum]
    refine sum_congr rfl fun i _ => ?_
    by_cases hr : RowsV (m.vert v)
    · by_cases he : (m.vert v).face i = f
      · rw [if_pos hr, if_pos ⟨hr, he⟩, part, he, if_pos hl, if_pos rfl]
        field_simp
      · rw [if_pos hr, if_neg (fun k => he k.2), part, if_neg he, ite_self, mul_zero]
    · rw [if_neg hr, if_neg (fun k => hr k.1), mul_zero]
  · refine sum_congr rfl fun v _ => ?_
    rw [mul_sum, ← sum_neg_distrib]
    refine sum_congr rfl fun i _ => ?_
    by_cases hr : CornerV (m.vert v)
    · by_cases he : (m.vert v).subFace 0 i = f
      · rw [if_pos hr, if_pos ⟨hr, he⟩, part, he, if_pos hl, if_pos rfl]
        field_simp
      · rw [if_pos hr, if_neg (fun k => he k.2), part, if_neg he, ite_self, mul_zero, neg_zero]
    · rw [if_neg hr, if_neg (fun k => hr k.1), mul_zero, neg_zero]

/-- **C131 (partial).**  The velocity of a local face without a corner of the domain, times its area,
is the rate through its subfaces.  Missing: faces with a corner of the domain, see
`C131_corner_violated`. -/
theorem C131_sum_partial (ok : VelOk m) (s : VelSt) {f : Nat} (hf : f < m.numFaces)
    (hl : (m.face f).isLocal = true) (ha : m.area f ≠ 0) (hc : NoCorner m f) :
    m.area f*(recoverVelocity m s).vel f = overRows m f (rate m) := by
  rw [C131_formula ok s hf hl ha, overCorners, sum_eq_zero, sub_zero]
  intro v hv
  exact sum_eq_zero fun i hi => if_neg fun k => hc v (mem_range.1 hv) k.1 i (mem_range.1 hi) k.2

/-- **C131.**  Faces of other processes get no velocity. -/
theorem C131_foreign_zero (ok : VelOk m) (s : VelSt) {f : Nat} (hf : f < m.numFaces)
    (hl : (m.face f).isLocal = false) : (recoverVelocity m s).vel f = 0 := by
  have h := recover_adds ok (adds_vel m f) s
  dsimp only at h
  have hp : ∀ g x, part m (fun g x => if g = f then x else 0) g x = 0 := by
    intro g x
    unfold part
    by_cases he : g = f
    · subst he; rw [hl]; simp
    · simp [he]
  rw [h, reset_vel, if_pos hf]
  simp only [hp, ite_self, sum_const_zero, add_zero]

/-- **C131.**  Velocities do not depend on what the arrays contained. -/
theorem C131_repeatable (ok : VelOk m) (s s' : VelSt) {f : Nat} (hf : f < m.numFaces) :
    (recoverVelocity m s).vel f = (recoverVelocity m s').vel f := by
  have h := recover_adds ok (adds_vel m f)
  dsimp only at h
  rw [h s, h s', reset_vel, reset_vel, if_pos hf, if_pos hf]

/-- **C131 (negative).**  The number of contributions to a face is added to what was counted before:
counts of a second recovery are wrong. -/
theorem C131_count_violated (ok : VelOk m) (s : VelSt) (f : Nat) :
    ∃ k : ℝ, (∀ s, ((recoverVelocity m s).cnt f : ℝ) = s.cnt f + k) ∧
      ((recoverVelocity m (recoverVelocity m s)).cnt f : ℝ) = s.cnt f + 2*k := by
  have h := recover_adds ok (adds_cnt m f)
  dsimp only at h
  refine ⟨_, fun s => by rw [h s, add_assoc], ?_⟩
  rw [h, h]
  ring

/-! ### Uniform media -/

/-- The data of vertex `v` are those the transmissibilities of `vt` were computed from. -/
structure FromVtx (m : VelIn) (w : VVert) (vt : Vtx) (T : Nat → Fin (vt.npcen + nDir vt) → ℝ) :
    Prop where
  wf : WellFormed vt
  solved : trans vt = some T
  dir : vt.dirichlet = true
  cells : w.nCells = vt.npcen
  bnd : w.nBnd = vt.nBnd
  nFaces : w.nFaces = vt.nFaces
  face : ∀ i < w.nFaces, w.face i = vertexFaces vt i
  T_eq : ∀ i < w.nFaces, ∀ j : Fin (vt.npcen + nDir vt), w.T i j = T i j
  sub : ∀ i < vt.npcen, ∀ f < 3, w.subFace i f = (vt.sub i).face f
  internal : ∀ i < vt.npcen, ∀ f < 3, m.internal ((vt.sub i).face f) = (vt.sub i).internal f

/-- The pressures gathered for the velocities are those of the columns of the transmissibilities. -/
theorem pressureAt_idx {w : VVert} {vt : Vtx} {T} (h : FromVtx m w vt T) (pb : Nat → ℝ)
    (hpb : ∀ i f, InRange vt i f → (vt.sub i).internal f = false →
      pb ((vt.sub i).bnd f) = bndPressure m w i ((vt.sub i).face f))
    {k : Nat} (hk : k < (bndFaces m w).length) : pressureAt m w k = pb (idxBnd vt k) := by
  let φ : Nat × (Nat → Nat) → Nat × (Nat → ℝ) := fun st => (st.1, fun k => pb (st.2 k))
  have sim : φ (gatherBnd vt) = forN w.nCells
      (fun i st => forN 3 (fun f st => gatherPStep m w i f st) st) (0, fun _ => pb 0) := by
    unfold gatherBnd
    rw [h.cells]
    refine Proofs.forN_sim φ vt.npcen _ _ (fun i st hi => ?_) _
    refine Proofs.forN_sim φ 3 _ _ (fun f st hf => ?_) _
    unfold gatherStep gatherPStep
    rw [h.sub i hi f hf, h.internal i hi f hf]
    cases hI : (vt.sub i).internal f
    · simp only [Bool.false_eq_true, if_false, φ]
      refine Prod.ext rfl (funext fun j => ?_)
      dsimp only
      unfold wr
      split
      · exact hpb i f ⟨hi, hf⟩ hI
      · rfl
    · rfl
  have g := (holds_from m w fun _ => pb 0).2 k hk _ (List.getElem?_eq_getElem hk)
  rw [← sim] at g
  change pb (idxBnd vt k) = _ at g
  rw [g]
  unfold bndPressure pressureAt
  rw [List.getElem?_eq_getElem hk]
  cases m.bndP <;> rfl

/-- The rate of a row is minus the product of the transmissibilities with the pressures. -/
theorem rate_trans {w : VVert} {vt : Vtx} {T} (h : FromVtx m w vt T)
    (hb : (bndFaces m w).length = w.nBnd) (pb : Nat → ℝ)
    (hpb : ∀ i f, InRange vt i f → (vt.sub i).internal f = false →
      pb ((vt.sub i).bnd f) = bndPressure m w i ((vt.sub i).face f)) (u : Nat → ℝ)
    (hu : ∀ i < vt.npcen, potential m (w.cell i) = u i) {i : Nat} (hi : i < w.nFaces) :
    rate m w i = -transTimes vt T u pb i := by
  have hn : nDir vt = w.nBnd := by rw [nDir, if_pos h.dir, h.bnd]
  have e : transTimes vt T u pb i = ∑ j ∈ range (w.nCells + w.nBnd),
      w.T i j*(if j < vt.npcen then u j else pb (idxBnd vt (j - vt.npcen))) := by
    rw [h.cells, ← hn, sum_range]
    exact sum_congr rfl fun j _ => by rw [h.T_eq i hi j]
  rw [rate, e, sum_range_add]
  congr 2
  · refine sum_congr rfl fun k hk => ?_
    have hk : k < vt.npcen := h.cells ▸ mem_range.1 hk
    rw [if_pos hk, hu k hk]
  · refine sum_congr rfl fun k hk => ?_
    rw [if_neg (by rw [h.cells]; omega), h.cells, Nat.add_sub_cancel_left,
      pressureAt_idx h pb hpb (by rw [hb]; exact mem_range.1 hk)]

/-- Around vertex `v` the medium has permeability `K`; `sub f` is the area of the part of face `f`
next to the vertex. -/
structure UniformAt (m : VelIn) (v : Nat) (K : Fin 3 → Fin 3 → ℝ) (sub : Nat → ℝ)
    (normal fc ccen : Nat → Geo.P3) : Prop where
  from_vtx : ∃ (vt : Vtx) (T : Nat → Fin (vt.npcen + nDir vt) → ℝ) (vtx : Geo.P3)
    (order : Nat → Fin 3 → Nat) (bndFace : Nat → Nat), FromVtx m (m.vert v) vt T ∧
    (∀ i < vt.npcen, ∀ k : Fin 3,
      (vt.sub i).face k = orientFaces fc (ccen ((m.vert v).cell i)) vtx (order i) k) ∧
    (∀ i < vt.npcen, Separates fc (ccen ((m.vert v).cell i)) vtx (order i)) ∧
    (∀ i < vt.npcen, ∀ ii jj : Fin 3, (vt.sub i).G ii jj
      = gMatrix K sub normal fc (ccen ((m.vert v).cell i)) (fun k => (vt.sub i).face k) ii jj) ∧
    ∀ i < vt.npcen, ∀ f < 3, (vt.sub i).internal f = false →
      bndFace ((vt.sub i).bnd f) = (vt.sub i).face f

/-- The same for the corner `v` of the domain. -/
structure UniformCorner (m : VelIn) (v : Nat) (K : Fin 3 → Fin 3 → ℝ) (sub : Nat → ℝ)
    (normal fc ccen : Nat → Geo.P3) : Prop where
  from_geometry : ∃ (vtx : Geo.P3) (order : Fin 3 → Nat),
    (∀ k : Fin 3, (m.vert v).subFace 0 k = orientFaces fc (ccen ((m.vert v).cell 0)) vtx order k) ∧
    Separates fc (ccen ((m.vert v).cell 0)) vtx order ∧
    ∀ ii jj : Fin 3, (m.vert v).G ii jj = gMatrix K sub normal fc (ccen ((m.vert v).cell 0))
      (fun k => (m.vert v).subFace 0 k) ii jj

/-- A uniform medium with permeability `K` and a linear potential of gradient `g`; the part of face
`f` next to vertex `v` has area `sub v f`. -/
structure UniformLinear (m : VelIn) (K : Fin 3 → Fin 3 → ℝ) (sub : Nat → Nat → ℝ)
    (normal fc ccen : Nat → Geo.P3) (g : Geo.P3) (b : ℝ) (p : Nat → ℝ) : Prop where
  rows : ∀ v < m.numVertices, RowsV (m.vert v) → UniformAt m v K (sub v) normal fc ccen
  corners : ∀ v < m.numVertices, CornerV (m.vert v) → UniformCorner m v K (sub v) normal fc ccen
  no_gravity : ∀ c, m.gz c = 0
  cells : ∀ c, m.u c = Geo.dot g (ccen c) + b
  bndP : m.bndP = some p
  boundary : ∀ x, m.internal x = false → p x = Geo.dot g (fc x) + b
  corner_boundary : ∀ v < m.numVertices, CornerV (m.vert v) → ∀ k < 3,
    m.internal ((m.vert v).subFace 0 k) = false

/-- Area of the parts of face `f` next to vertices that contribute with their rows. -/
noncomputable def rowArea (m : VelIn) (sub : Nat → Nat → ℝ) (f : Nat) : ℝ :=
  ∑ v ∈ range m.numVertices, ∑ i ∈ range (m.vert v).nFaces,
    if RowsV (m.vert v) ∧ (m.vert v).face i = f then sub v f else 0

/-- Area of the parts of face `f` next to corners of the domain. -/
noncomputable def cornerArea (m : VelIn) (sub : Nat → Nat → ℝ) (f : Nat) : ℝ :=
  ∑ v ∈ range m.numVertices, ∑ i ∈ range 3,
    if CornerV (m.vert v) ∧ (m.vert v).subFace 0 i = f then sub v f else 0

variable {K : Fin 3 → Fin 3 → ℝ} {sub : Nat → Nat → ℝ} {normal fc ccen : Nat → Geo.P3}
  {g : Geo.P3} {b : ℝ} {p : Nat → ℝ}

theorem rows_linear (ok : VelOk m) (un : UniformLinear m K sub normal fc ccen g b p) (f : Nat) :
    overRows m f (rate m) = rowArea m sub f*-Geo.dot (normal f) (mulK K g) := by
  rw [overRows, rowArea, sum_mul]
  refine sum_congr rfl fun v hv => ?_
  rw [sum_mul]
  refine sum_congr rfl fun i hi => ?_
  by_cases hr : RowsV (m.vert v) ∧ (m.vert v).face i = f
  · rw [if_pos hr, if_pos hr]
    have hi := mem_range.1 hi
    have hv := mem_range.1 hv
    obtain ⟨vt, T, vtx, order, bndFace, hF, h1, h2, h3, h4⟩ := (un.rows v hv hr.1).from_vtx
    have hpb' : ∀ i f, InRange vt i f → (vt.sub i).internal f = false →
        Geo.dot g (fc (bndFace ((vt.sub i).bnd f))) + b
          = bndPressure m (m.vert v) i ((vt.sub i).face f) := by
      intro i f hr hI
      unfold bndPressure
      rw [un.bndP]
      dsimp only
      rw [h4 i hr.1 f hr.2 hI, un.boundary _ (by rw [hF.internal i hr.1 f hr.2, hI])]
    have := C92_linear_exact hF.wf hF.solved K (sub v) normal fc
      (fun i => ccen ((m.vert v).cell i)) vtx order h1 h2 h3 g b
      (fun b' => Geo.dot g (fc (bndFace b')) + b)
      (fun i f hr hI => ⟨hF.dir, by rw [h4 i hr.1 f hr.2 hI]⟩)
      (r := i) (x := f) ⟨hF.nFaces ▸ hi, by rw [← hF.face i hi, hr.2]⟩
    rw [rate_trans hF (ok.bnd_count v hv hr.1) (fun b' => Geo.dot g (fc (bndFace b')) + b) hpb' _
      (fun j _ => by rw [potential, un.no_gravity, mul_zero, add_zero, un.cells]) hi, this]
    ring
  · rw [if_neg hr, if_neg hr, zero_mul]

theorem corners_linear (un : UniformLinear m K sub normal fc ccen g b p) (f : Nat) :
    overCorners m f (cornerRate m) = cornerArea m sub f*-Geo.dot (normal f) (mulK K g) := by
  rw [overCorners, cornerArea, sum_mul]
  refine sum_congr rfl fun v hv => ?_
  rw [sum_mul]
  refine sum_congr rfl fun i hi => ?_
  by_cases hr : CornerV (m.vert v) ∧ (m.vert v).subFace 0 i = f
  · rw [if_pos hr, if_pos hr]
    have hi := mem_range.1 hi
    have hv := mem_range.1 hv
    obtain ⟨vtx, order, h1, h2, h3⟩ := (un.corners v hv hr.1).from_geometry
    have ho := orient_neg fc (ccen ((m.vert v).cell 0)) vtx order h2
    simp only [← h1] at ho
    have := oneSided_linear K (sub v) normal fc (ccen ((m.vert v).cell 0))
      { G := (m.vert v).G, internal := fun _ => false, up := fun _ => true, link := fun _ => 0
        bnd := fun _ => 0, face := (m.vert v).subFace 0 } h3 ho g b
      (fun x => Geo.dot g (fc x) + b) (fun _ _ => rfl) ⟨i, hi⟩
    dsimp only at this
    rw [hr.2] at this
    rw [cornerRate, mul_neg, ← this, oneSided]
    congr 1
    refine sum_congr rfl fun j hj => ?_
    dsimp only
    rw [un.cells, cornerPressure, un.bndP]
    dsimp only
    rw [un.boundary _ (un.corner_boundary v hv hr.1 j (mem_range.1 hj))]
  · rw [if_neg hr, if_neg hr, zero_mul]

/-- In a uniform medium a linear pressure gives a local face the exact velocity `-normal · K ∇p`
times the share of its area at the vertices that are not corners of the domain, minus the share at
the corners. -/
theorem C131_linear_formula (ok : VelOk m) (un : UniformLinear m K sub normal fc ccen g b p)
    (s : VelSt) {f : Nat} (hf : f < m.numFaces) (hl : (m.face f).isLocal = true)
    (ha : m.area f ≠ 0) :
    m.area f*(recoverVelocity m s).vel f
      = (rowArea m sub f - cornerArea m sub f)*-Geo.dot (normal f) (mulK K g) := by
  rw [C131_formula ok s hf hl ha, rows_linear ok un, corners_linear un]
  ring

/-- **C131 (partial).**  In a uniform medium, whatever the shape of the cells, a linear pressure
gives every local face without a corner of the domain the exact velocity `-normal · K ∇p`.
Missing: faces with a corner of the domain. -/
theorem C131_linear_exact_partial (ok : VelOk m) (un : UniformLinear m K sub normal fc ccen g b p)
    (s : VelSt) {f : Nat} (hf : f < m.numFaces) (hl : (m.face f).isLocal = true)
    (ha : m.area f ≠ 0) (hc : NoCorner m f) (harea : rowArea m sub f = m.area f) :
    (recoverVelocity m s).vel f = -Geo.dot (normal f) (mulK K g) := by
  have h := C131_sum_partial ok s hf hl ha hc
  rw [rows_linear ok un, harea] at h
  exact mul_left_cancel₀ ha h

/-- **C131 (negative).**  A face with a corner of the domain never gets the exact velocity, unless
that is zero. -/
theorem C131_corner_violated (ok : VelOk m) (un : UniformLinear m K sub normal fc ccen g b p)
    (s : VelSt) {f : Nat} (hf : f < m.numFaces) (hl : (m.face f).isLocal = true)
    (ha : m.area f ≠ 0) (harea : rowArea m sub f + cornerArea m sub f = m.area f)
    (hc : cornerArea m sub f ≠ 0) (hne : Geo.dot (normal f) (mulK K g) ≠ 0) :
    (recoverVelocity m s).vel f ≠ -Geo.dot (normal f) (mulK K g) := by
  intro h
  have e := C131_linear_formula ok un s hf hl ha
  rw [h] at e
  have := mul_right_cancel₀ (neg_ne_zero.2 hne) e
  apply hc
  linarith

/-! ### C132: a fluid at rest -/

/-- The rows of the transmissibilities sum to zero (`C46`). -/
def RowsSumZero (m : VelIn) : Prop :=
  ∀ v < m.numVertices, RowsV (m.vert v) → ∀ i < (m.vert v).nFaces,
    ∑ k ∈ range ((m.vert v).nCells + (m.vert v).nBnd), (m.vert v).T i k = 0

/-- **C132 (partial).**  Without a boundary pressure function a fluid at rest, in which pressure plus
`rho g z` is constant, gets velocity zero in every face.  Missing: a boundary pressure function, see
`C132_rest_violated`. -/
theorem C132_rest_partial (ok : VelOk m) (hT : RowsSumZero m) (hn : m.bndP = none) (c : ℝ)
    (hu : ∀ k, potential m k = c) (s : VelSt) {f : Nat} (hf : f < m.numFaces)
    (ha : m.area f ≠ 0) : (recoverVelocity m s).vel f = 0 := by
  cases hl : (m.face f).isLocal
  · exact C131_foreign_zero ok s hf hl
  have h := C131_formula ok s hf hl ha
  have e1 : overRows m f (rate m) = 0 := by
    refine sum_eq_zero fun v hv => sum_eq_zero fun i hi => ?_
    by_cases hr : RowsV (m.vert v) ∧ (m.vert v).face i = f
    · have hz := hT v (mem_range.1 hv) hr.1 i (mem_range.1 hi)
      rw [sum_range_add] at hz
      rw [if_pos hr, rate]
      have hp : ∀ k, pressureAt m (m.vert v) k = c := by
        intro k; rw [pressureAt, hn]; exact hu _
      simp only [hu, hp]
      rw [← sum_mul, ← sum_mul, ← add_mul, hz, zero_mul, neg_zero]
    · rw [if_neg hr]
  have e2 : overCorners m f (cornerRate m) = 0 := by
    refine sum_eq_zero fun v hv => sum_eq_zero fun i hi => ?_
    have : cornerRate m (m.vert v) i = 0 := by
      rw [cornerRate, sum_eq_zero, neg_zero]
      intro j _
      rw [cornerPressure, hn]
      dsimp only
      rw [sub_self, mul_zero]
    rw [this, ite_self]
  rw [e1, e2, sub_zero] at h
  exact (mul_eq_zero.1 h).resolve_left ha

/-- A fluid of density `ρ` at rest, also on the boundary: there `gzf` is `g z`. -/
structure AtRest (m : VelIn) (p : Nat → ℝ) (ρ c : ℝ) (gzf : Nat → ℝ) : Prop where
  rho : ∀ k, m.rho k = ρ
  cells : ∀ k, m.u k + ρ*m.gz k = c
  bndP : m.bndP = some p
  boundary : ∀ f, p f + ρ*gzf f = c

/-- **C132 (negative).**  With a boundary pressure function, to which `rho g z` is not added, the
rate found through a subface of a fluid at rest is what the gravity on the boundary alone drives. -/
theorem C132_rest_violated {ρ c : ℝ} {gzf : Nat → ℝ} (hT : RowsSumZero m)
    (hr : AtRest m p ρ c gzf) {v : Nat} (hv : v < m.numVertices) (hw : RowsV (m.vert v)) {i : Nat}
    (hi : i < (m.vert v).nFaces) :
    rate m (m.vert v) i = ρ*∑ k ∈ range (m.vert v).nBnd,
      (m.vert v).T i ((m.vert v).nCells + k)*
        gzf ((bndFaces m (m.vert v))[k]?.getD (0, 0)).2 := by
  have hz := hT v hv hw i hi
  rw [sum_range_add] at hz
  have hu : ∀ k, potential m k = c := fun k => by rw [potential, hr.rho, hr.cells]
  have hp : ∀ k, pressureAt m (m.vert v) k
      = c - ρ*gzf ((bndFaces m (m.vert v))[k]?.getD (0, 0)).2 := by
    intro k
    rw [pressureAt, hr.bndP]
    dsimp only
    rw [← hr.boundary ((bndFaces m (m.vert v))[k]?.getD (0, 0)).2]
    ring
  rw [rate]
  simp only [hu, hp]
  simp only [mul_sub, sum_sub_distrib]
  rw [← sum_mul, ← sum_mul, mul_sum]
  have e : ∑ k ∈ range (m.vert v).nBnd, (m.vert v).T i ((m.vert v).nCells + k)*
        (ρ*gzf ((bndFaces m (m.vert v))[k]?.getD (0, 0)).2)
      = ∑ k ∈ range (m.vert v).nBnd, ρ*((m.vert v).T i ((m.vert v).nCells + k)*
        gzf ((bndFaces m (m.vert v))[k]?.getD (0, 0)).2) :=
    sum_congr rfl fun k _ => by ring
  rw [e]
  have : (∑ k ∈ range (m.vert v).nCells, (m.vert v).T i k)*c +
      (∑ k ∈ range (m.vert v).nBnd, (m.vert v).T i ((m.vert v).nCells + k))*c = 0 := by
    rw [← add_mul, hz, zero_mul]
  linarith

/-! ### C133: the velocity error -/

/-- The reference is exact: seen from a cell on either side, the flux of the velocity function through
a subface is the rate.  Inside the domain a face has two cells; on its boundary it has one, which is
local if the face is. -/
structure RefExact (m : VelIn) (r : Nat → ℤ → Nat → ℝ) : Prop where
  ref : m.ref = some r
  rows : ∀ v < m.numVertices, RowsV (m.vert v) → ∀ i < (m.vert v).nFaces, ∀ c,
    0 ≤ c → (c = (m.face ((m.vert v).face i)).up ∨ c = (m.face ((m.vert v).face i)).dn) →
    r v c ((m.vert v).face i) = rate m (m.vert v) i
  inner : ∀ v < m.numVertices, RowsV (m.vert v) → ∀ i < (m.vert v).nFaces - (m.vert v).nBnd,
    0 ≤ (m.face ((m.vert v).face i)).up ∧ 0 ≤ (m.face ((m.vert v).face i)).dn
  outer : ∀ v < m.numVertices, RowsV (m.vert v) → ∀ i < (m.vert v).nFaces,
    (m.vert v).nFaces - (m.vert v).nBnd ≤ i → (m.face ((m.vert v).face i)).isLocal = true →
    0 ≤ (m.face ((m.vert v).face i)).dn ∨
      (0 ≤ (m.face ((m.vert v).face i)).up ∧ m.isLocal (m.face ((m.vert v).face i)).up.toNat = true)

/-- A contribution equal to the reference adds nothing to the error. -/
theorem addVel_err {r : Nat → ℤ → Nat → ℝ} (hr : m.ref = some r) (v : Nat) (c : ℤ) (f : Nat)
    (x : ℝ) (s : VelSt) : (addVel m v c f x s).err = s.err + (x - r v c f)^2 := by
  unfold addVel
  rw [hr]

theorem forN_err {n : Nat} {body : Nat → VelSt → VelSt} (e : ℝ)
    (h : ∀ i s, i < n → s.err = e → (body i s).err = e) (s : VelSt) (hs : s.err = e) :
    (forN n body s).err = e :=
  forN_invariant n body s (fun _ s => s.err = e) hs (fun i s hi h' => h i s hi h')

/-- **C133 (partial).**  If all faces have area 1 and the domain has no corner, the error is zero for
exact fluxes.  Missing: other areas and corners, see `C133_area_violated`. -/
theorem C133_unit_area_partial (ok : VelOk m) {r} (hx : RefExact m r)
    (harea : ∀ f, m.area f = 1) (hc : ∀ v < m.numVertices, ¬CornerV (m.vert v)) (s : VelSt) :
    (recoverVelocity m s).err = 0 := by
  have guard : ∀ v c g x (s : VelSt), ((m.face g).isLocal = true → x = r v c g) → s.err = 0 →
      (if !(m.face g).isLocal then s else addVel m v c g x s).err = 0 := by
    intro v c g x s hx' hs
    split
    · exact hs
    · rename_i hl
      rw [addVel_err hx.ref, hs, hx' (by simpa using hl), sub_self]; norm_num
  have shared : ∀ v < m.numVertices, SharedV (m.vert v) → ∀ c : ℤ, ∀ i < (m.vert v).nFaces,
      0 ≤ c → (c = (m.face ((m.vert v).face i)).up ∨ c = (m.face ((m.vert v).face i)).dn) →
      sharedPart m (m.vert v) i = r v c ((m.vert v).face i) := by
    intro v hv hs c i hi h0 h1
    have hw : RowsV (m.vert v) := Or.inr hs.2
    rw [sharedPart_eq _ _ _ (ok.bnd_count v hv hw), harea, div_one, hx.rows v hv hw i hi c h0 h1]
  unfold recoverVelocity
  dsimp only
  refine forN_err 0 (fun v s hv hs => ?_) _ ?_
  · unfold velShared
    dsimp only
    split
    · exact hs
    · rename_i h
      push Not at h
      have hsv : SharedV (m.vert v) := ⟨h.1, h.2.1, by
        cases hl : (m.vert v).isLocal
        · exact absurd hl h.2.2
        · rfl⟩
      have hle := ok.bnd_le v hv
      refine forN_err 0 (fun i s hi hs => ?_) _ (forN_err 0 (fun i s hi hs => ?_) _ hs)
      · refine guard _ _ _ _ _ (fun hl => shared v hv hsv _ _ (by omega) ?_ ?_) hs
        · have := hx.outer v hv (Or.inr hsv.2) (i + ((m.vert v).nFaces - (m.vert v).nBnd)) (by omega)
            (by omega) hl
          split
          · omega
          · rename_i hn
            rcases this with h | h
            · exact h
            · exact absurd ⟨by omega, h.2⟩ hn
        · split
          · exact .inl rfl
          · exact .inr rfl
      · have := hx.inner v hv (Or.inr hsv.2) i hi
        refine guard _ _ _ _ _ (fun _ => shared v hv hsv _ _ (by omega) ?_ ?_) hs
        · split
          · exact this.1
          · exact this.2
        · split
          · exact .inl rfl
          · exact .inr rfl
  refine forN_err 0 (fun v s hv hs => ?_) _ ?_
  · unfold velCorner
    dsimp only
    rw [if_pos]
    · exact hs
    · have := hc v hv
      by_contra hne
      push Not at hne
      exact this hne
  refine forN_err 0 (fun v s hv hs => ?_) _ (by norm_num)
  unfold velInternal
  dsimp only
  split
  · rename_i h0
    refine forN_err 0 (fun i s hi hs => ?_) _ hs
    refine guard _ _ _ _ _ (fun _ => ?_) hs
    rw [cellPart_rate _ _ _ h0, harea, div_one, hx.rows v hv (Or.inl h0) i hi _
      (hx.inner v hv (Or.inl h0) i (by omega)).1 (.inl rfl)]
  · exact hs

/-- The number of comparisons is zero without a velocity function: 0/0 is printed. -/
theorem C133_no_function (hn : m.ref = none) (s : VelSt) :
    (recoverVelocity m s).n = 0 ∧ velReport [recoverVelocity m s] = none := by
  have add : ∀ v c g x (s : VelSt), (addVel m v c g x s).n = s.n := by
    intro v c g x s
    unfold addVel
    rw [hn]
  have loop : ∀ {n : Nat} {body : Nat → VelSt → VelSt}, (∀ i s, (body i s).n = s.n) → ∀ s,
      (forN n body s).n = s.n := by
    intro n body h s
    exact forN_invariant n body s (fun _ t => t.n = s.n) rfl (fun i t _ e => (h i t).trans e)
  have guard : ∀ v c g x (s : VelSt),
      (if !(m.face g).isLocal then s else addVel m v c g x s).n = s.n := by
    intro v c g x s
    split
    · rfl
    · exact add ..
  have h0 : (recoverVelocity m s).n = 0 := by
    unfold recoverVelocity
    dsimp only
    rw [loop (fun v s => ?_), loop (fun v s => ?_), loop (fun v s => ?_)]
    · unfold velInternal
      dsimp only
      split
      · exact loop (fun i s => guard ..) s
      · rfl
    · unfold velCorner
      dsimp only
      split
      · rfl
      · exact loop (fun i s => guard ..) s
    · unfold velShared
      dsimp only
      split
      · rfl
      · rw [loop (body := fun i s => velOuter m v _ s) (fun i s => guard ..),
          loop (body := fun i s => velInner m v i s) (fun i s => guard ..)]
  exact ⟨h0, by simp [velReport, h0]⟩

end TDy.Mpfao.Props
