import Verif.Props.WyParallel
import Verif.Props.WyWitness

/-!
# A mesh on two processes that meets the hypotheses of C192
-/

namespace TDy.Fe.Props.WySplitWitness

open TDy.Fe TDy.Fe.Spec TDy.Fe.Proofs TDy.Fe.Props.WyWitness Finset

noncomputable section

/-- Points of the strip in the numbering of the processes: everything backwards. -/
def back (x : Nat) : Nat := if x < 2 then 1 - x else if x < 8 then 9 - x else 22 - x

/-- A signed face in the numbering of the processes; the normal of the face between the cells points the
other way. -/
def backSigned (e : Int) : Int := e.sign*(if e.natAbs = 9 then -1 else 1)*(22 - e.natAbs : Nat)

/-- The strip on the process that owns cell `p`; it holds the other as a ghost. -/
def half (p : Bool) : Wy where
  dim := 2
  nq := 4
  nfv := 2
  nCells := 2
  fStart := 8
  fEnd := 15
  vStart := 2
  vEnd := 8
  star := fun v => ((strip.star (9 - v)).map back).reverse
  vmap := fun c q => 9 - strip.vmap (1 - c) q
  emap := fun c k => backSigned (strip.emap (1 - c) k)
  fmap := fun f k => 9 - strip.fmap (22 - f) k
  V := fun k => if k < 2 then 4 else 2
  X := fun k => strip.X (back k)
  N := fun f i => if f = 13 then -strip.N 9 i else strip.N (22 - f) i
  cone := fun c => (strip.cone (1 - c)).map back
  bc := fun f => f != 13
  hasPressure := true
  pb := fun _ => 3
  hasForcing := true
  force := fun _ _ => 1
  DFinv := fun _ _ k => if k = 0 ∨ k = 3 then 1 else 0
  J := fun _ _ => 1
  global := fun c => if 1 - c = p.toNat then (1 - c : Nat) else -(1 - c : Nat) - 1
  debug := true
  tol := 1/10^12

def halfView : WyView where
  cell := fun c => 1 - c
  vert := fun v => 9 - v
  face := fun f => 22 - f
  flip := fun f => f == 13

def halfCor (v c : Nat) : Nat := cor (9 - v) (1 - c)

def halfPl (f v : Nat) : Nat := pl (22 - f) (9 - v)

theorem half_star (p : Bool) : ∀ v, (half p).vStart ≤ v → v < (half p).vEnd → Star (half p) v (halfCor v) := by
  intro v h1 h2
  change 2 ≤ v at h1
  change v < 8 at h2
  cases p <;> interval_cases v <;> constructor <;> decide

theorem half_numbers (p : Bool) : GlobalNumbers (half p) (fun a => id (halfView.cell a)) := by
  refine ⟨fun c hc => ?_, ?_⟩
  · show (if 1 - c = p.toNat then ((1 - c : Nat) : Int) else -(1 - c : Nat) - 1) = _ ∨
      (if 1 - c = p.toNat then ((1 - c : Nat) : Int) else -(1 - c : Nat) - 1) = _
    split
    · exact .inl rfl
    · exact .inr rfl
  · show ∀ c < 2, ∀ c' < 2, 1 - c = 1 - c' → c = c'
    decide

theorem half_sees (p : Bool) : SeesWy strip (half p) perm perm halfView where
  dim := rfl
  nq := rfl
  tol := rfl
  hasPressure := rfl
  hasForcing := rfl
  cellLt := by show ∀ a < 2, 1 - a < 2; decide
  cellInj := by show ∀ a < 2, ∀ b < 2, 1 - a = 1 - b → a = b; decide
  perm := fun _ _ => rfl
  inverse := fun _ _ _ _ => rfl
  jac := fun _ _ _ _ => rfl
  force := fun _ _ _ _ => rfl
  vertLt := by
    rintro v ⟨h1, h2, _⟩
    change 2 ≤ v at h1
    change v < 8 at h2
    show 2 ≤ 9 - v ∧ 9 - v < 8
    omega
  vertInj := by
    rintro v v' ⟨h1, h2, _⟩ ⟨h1', h2', _⟩ h
    change 2 ≤ v at h1
    change v < 8 at h2
    change 2 ≤ v' at h1'
    change v' < 8 at h2'
    change 9 - v = 9 - v' at h
    omega
  cells := by
    rintro v ⟨h1, h2, _⟩
    change 2 ≤ v at h1
    change v < 8 at h2
    cases p <;> interval_cases v <;> decide
  faces := by
    rintro v ⟨h1, h2, _⟩
    change 2 ≤ v at h1
    change v < 8 at h2
    cases p <;> interval_cases v <;> decide
  corner := by
    rintro v ⟨h1, h2, _⟩
    change 2 ≤ v at h1
    change v < 8 at h2
    cases p <;> interval_cases v <;> decide
  face := by
    rintro v ⟨h1, h2, _⟩
    change 2 ≤ v at h1
    change v < 8 at h2
    cases p <;> interval_cases v <;> decide
  sign := by
    rintro v ⟨h1, h2, _⟩
    change 2 ≤ v at h1
    change v < 8 at h2
    have key : ∀ a ∈ (half p).cells v, ∀ q < (half p).nq, (half p).vmap a q = v → ∀ i < (half p).dim,
        ((half p).emap a (q*2 + i)).sign
          = (if halfView.flip ((half p).face a q i) then -1 else 1)*(strip.emap (1 - a) (q*2 + i)).sign := by
      cases p <;> interval_cases v <;> decide
    intro a ha q hq hv i hi
    unfold Wy.sign WyView.turn
    have := congrArg (fun z : Int => (z : ℝ)) (key a ha q hq hv i hi)
    push_cast at this
    exact this
  area := by
    intro v hv f hf
    show (if f < 2 then (4:ℝ) else 2) = if 22 - f < 2 then 4 else 2
    have hb : 8 ≤ f ∧ f < 15 := by
      unfold Wy.faces at hf
      have := (List.mem_filter.1 hf).2
      rw [Bool.and_eq_true, decide_eq_true_eq, decide_eq_true_eq] at this
      exact this
    rw [if_neg (by omega), if_neg (by omega)]
  given := by
    rintro v ⟨h1, h2, _⟩
    change 2 ≤ v at h1
    change v < 8 at h2
    cases p <;> interval_cases v <;> decide
  value := fun _ _ _ _ => rfl
  cover := by
    intro a ha _ V h1 h2
    change a < 2 at ha
    change 2 ≤ V at h1
    change V < 8 at h2
    intro hV
    refine ⟨9 - V, ?_, ?_, ?_, ?_⟩
    · show 2 ≤ 9 - V
      omega
    · show 9 - V < 8
      omega
    · revert hV
      cases p <;> interval_cases V <;> interval_cases a <;> decide
    · show 9 - (9 - V) = V
      omega

theorem half_regular (p : Bool) : ∀ c < (half p).nCells, Regular (half p) perm c := strip_regular

theorem half_cov (p : Bool) : ∀ v, (half p).vStart ≤ v → v < (half p).vEnd → ∀ f ∈ (half p).faces v,
    Covered (half p) v (halfCor v) f := by
  intro v h1 h2
  change 2 ≤ v at h1
  change v < 8 at h2
  have key : ∀ f ∈ (half p).faces v, ∃ c ∈ (half p).cells v, ∃ i < 2, (half p).face c (halfCor v c) i = f
      ∧ (half p).emap c (halfCor v c*2 + i) ≠ 0 ∧ 2 ≤ f := by
    cases p <;> interval_cases v <;> decide
  intro f hf
  obtain ⟨c, hc, i, hi, hfi, hs, h2⟩ := key f hf
  refine ⟨c, hc, i, hi, hfi, ?_, ?_⟩
  · unfold Wy.sign
    rw [Int.cast_ne_zero]
    intro h0
    exact hs (Int.sign_eq_zero_iff_zero.1 h0)
  · show (if f < 2 then (4:ℝ) else 2) ≠ 0
    rw [if_neg (by omega)]
    norm_num

theorem half_size (p : Bool) : ∀ v, (half p).vStart ≤ v → v < (half p).vEnd →
    ((half p).faces v).length ≤ 12 ∧ ((half p).cells v).length ≤ 12 := by
  intro v h1 h2
  change 2 ≤ v at h1
  change v < 8 at h2
  cases p <;> interval_cases v <;> decide

/-- Each cell belongs to one process. -/
theorem half_one : ∀ c < strip.nCells, ∃ p < 2, ∃ a < (half (p == 1)).nCells,
    0 ≤ (half (p == 1)).global a ∧ halfView.cell a = c
    ∧ ∀ p' < 2, ∀ a' < (half (p' == 1)).nCells, 0 ≤ (half (p' == 1)).global a' → halfView.cell a' = c →
      p' = p := by
  show ∀ c < 2, ∃ p < 2, ∃ a < 2, 0 ≤ (half (p == 1)).global a ∧ 1 - a = c
    ∧ ∀ p' < 2, ∀ a' < 2, 0 ≤ (half (p' == 1)).global a' → 1 - a' = c → p' = p
  intro c hc
  interval_cases c
  · exact ⟨0, by decide, 1, by decide, by decide, by decide, by decide⟩
  · exact ⟨1, by decide, 0, by decide, by decide, by decide, by decide⟩

/-- Two processes assemble the system of the strip. -/
example (e : Local) : ∃ (s : Sys) (t : Nat → Sys) (e' : Local) (e'' : Nat → Local),
    wyComputeSystem strip perm e ⟨fun _ _ => 0, fun _ => 0⟩ = .ok (e', s)
    ∧ (∀ p < 2, wyComputeSystem (half (p == 1)) perm e ⟨fun _ _ => 0, fun _ => 0⟩ = .ok (e'' p, t p))
    ∧ (∀ r b, ∑ p ∈ range 2, (t p).K r b = s.K r b) ∧ ∀ r, ∑ p ∈ range 2, (t p).F r = s.F r := by
  obtain ⟨e', s, hs, _⟩ := C119_regular_partial strip perm cor strip_star strip_regular strip_cov
    strip_size e ⟨fun _ _ => 0, fun _ => 0⟩ (fun _ => 0) (fun _ _ => 0)
  have h := fun p : Nat => C119_regular_partial (half (p == 1)) perm halfCor (half_star _) (half_regular _)
    (half_cov _) (half_size _) e ⟨fun _ _ => 0, fun _ => 0⟩ (fun _ => 0) (fun _ _ => 0)
  choose e'' t ht _ using h
  refine ⟨s, t, e', e'', hs, fun p _ => ht p, ?_⟩
  exact C192_assembled strip perm id cor strip_star strip_numbers (fun c _ => Int.natCast_nonneg c) e e' s hs 2
    (fun p => half (p == 1)) (fun _ => perm) (fun _ => halfView) (fun _ => halfCor) (fun p _ => half_sees _)
    (fun p _ => half_star _) (fun p _ => half_numbers _) half_one (fun _ => e) e'' t (fun p _ => ht p)

theorem half_out (p : Bool) (c f : Nat) : (half p).outSign c f
    = if 0 < ((half p).N f 0*((half p).X f 0 - (half p).X c 0)
    + (half p).N f 1*((half p).X f 1 - (half p).X c 1)) then 1
    else if ((half p).N f 0*((half p).X f 0 - (half p).X c 0)
    + (half p).N f 1*((half p).X f 1 - (half p).X c 1)) < 0 then -1 else 0 := by
  have h : aDotBMinusC ((half p).N f) ((half p).X f) ((half p).X c) (half p).dim
      = (half p).N f 0*((half p).X f 0 - (half p).X c 0)
        + (half p).N f 1*((half p).X f 1 - (half p).X c 1) := by
    show forN 2 _ _ = _
    simp [forN]
  unfold Wy.outSign
  rw [h]
  rcases lt_trichotomy ((half p).N f 0*((half p).X f 0 - (half p).X c 0)
    + (half p).N f 1*((half p).X f 1 - (half p).X c 1)) 0 with h | h | h
  · rw [if_pos h, if_neg h.not_gt, if_pos h]
  · rw [h]; simp
  · rw [if_neg h.not_gt, if_neg h.ne', if_pos h]

theorem half_turn (p : Bool) {c f : Nat} (hc : c < 2) (h8 : 8 ≤ f) :
    (half p).outSign c f = halfView.turn f*strip.outSign (1 - c) (22 - f) := by
  rw [half_out, out_eq]
  have hX : ∀ i, (half p).X f i = strip.X (22 - f) i := by
    intro i
    show strip.X (back f) i = _
    unfold back
    rw [if_neg (by omega), if_neg (by omega)]
  have hc' : ∀ i, (half p).X c i = strip.X (1 - c) i := by
    intro i
    show strip.X (back c) i = _
    unfold back
    rw [if_pos hc]
  rw [hX, hX, hc', hc']
  by_cases hf : f = 13
  · subst hf
    have hN : ∀ i, (half p).N 13 i = -strip.N 9 i := fun i => by
      show (if 13 = 13 then -strip.N 9 i else strip.N (22 - 13) i) = _
      exact if_pos rfl
    have ht : halfView.turn 13 = -1 := if_pos rfl
    rw [hN, hN, ht]
    show (if 0 < (-strip.N 9 0*(strip.X 9 0 - strip.X (1 - c) 0)
      + -strip.N 9 1*(strip.X 9 1 - strip.X (1 - c) 1)) then (1:ℝ) else if (-strip.N 9 0
      *(strip.X 9 0 - strip.X (1 - c) 0) + -strip.N 9 1*(strip.X 9 1 - strip.X (1 - c) 1)) < 0 then -1 else 0)
      = -1*(if 0 < (strip.N 9 0*(strip.X 9 0 - strip.X (1 - c) 0)
      + strip.N 9 1*(strip.X 9 1 - strip.X (1 - c) 1)) then (1:ℝ) else if (strip.N 9 0
      *(strip.X 9 0 - strip.X (1 - c) 0) + strip.N 9 1*(strip.X 9 1 - strip.X (1 - c) 1)) < 0 then -1 else 0)
    rw [show -strip.N 9 0*(strip.X 9 0 - strip.X (1 - c) 0) + -strip.N 9 1*(strip.X 9 1 - strip.X (1 - c) 1)
      = -(strip.N 9 0*(strip.X 9 0 - strip.X (1 - c) 0) + strip.N 9 1*(strip.X 9 1 - strip.X (1 - c) 1)) by
        ring]
    generalize strip.N 9 0*(strip.X 9 0 - strip.X (1 - c) 0) + strip.N 9 1*(strip.X 9 1 - strip.X (1 - c) 1) = x
    rcases lt_trichotomy x 0 with h | h | h
    · rw [if_pos (by linarith), if_neg (by linarith), if_pos h]
      norm_num
    · subst h
      norm_num
    · rw [if_neg (by linarith), if_pos (by linarith), if_pos h]
      norm_num
  · have hN : ∀ i, (half p).N f i = strip.N (22 - f) i := fun i => if_neg hf
    have ht : halfView.turn f = 1 := if_neg (by show ¬(f == 13) = true; simpa using hf)
    rw [hN, hN, ht, one_mul]

theorem half_place (p : Bool) : ∀ v, (half p).vStart ≤ v → v < (half p).vEnd →
    ∀ f ∈ (half p).faces v, Place (half p) f v (halfPl f v) := by
  intro v h1 h2
  change 2 ≤ v at h1
  change v < 8 at h2
  unfold Place
  cases p <;> interval_cases v <;> decide

theorem half_map (p : Bool) : ∀ c < (half p).nCells, 0 ≤ (half p).global c → CellMap (half p) halfPl c := by
  intro c hc _
  change c < 2 at hc
  refine ⟨?_, ?_, ?_, ?_, rfl⟩
  · cases p <;> interval_cases c <;> decide
  · cases p <;> interval_cases c <;> decide
  · intro q hq d hd
    change q < 4 at hq
    change d < 2 at hd
    refine ⟨?_, ?_⟩
    · cases p <;> interval_cases c <;> interval_cases q <;> interval_cases d <;> decide
    · have h1 : (half p).face c q d = 22 - strip.face (1 - c) q d ∧ 8 ≤ (half p).face c q d
          ∧ 22 - (22 - strip.face (1 - c) q d) = strip.face (1 - c) q d
          ∧ ((half p).emap c (q*2 + d)).sign = (if halfView.flip ((half p).face c q d) then -1 else 1)
            *(strip.emap (1 - c) (q*2 + d)).sign := by
        cases p <;> interval_cases c <;> interval_cases q <;> interval_cases d <;> decide
      rw [half_turn p hc h1.2.1]
      have h2 := ((strip_map (1 - c) (by show 1 - c < 2; omega) (Int.natCast_nonneg _)).face_in q hq d hd).2
      rw [h1.1, h1.2.2.1, ← h2, ← h1.1]
      have h3 := congrArg (fun z : Int => (z : ℝ)) h1.2.2.2
      push_cast at h3
      exact h3
  · cases p <;> interval_cases c <;> decide

/-- The process that owns the second cell finds the residual of the strip there. -/
example (u dpdt : Nat → ℝ) (e : Local) (vel : Nat → Nat → ℝ) (R : Nat → ℝ) : ∃ R' R'',
    wyResidual strip perm (fun _ => 1) (fun _ => 1) u dpdt e vel R = .ok R'
    ∧ wyResidual (half true) perm (fun _ => 1) (fun _ => 1) (fun a => u (1 - a)) (fun a => dpdt (1 - a)) e
      vel R = .ok R'' ∧ R'' 0 = R' 1 := by
  obtain ⟨R', hR⟩ := residual_exists (fun _ => 1) (fun _ => 1) u dpdt e vel R
  obtain ⟨l', s', hs, vel', hv⟩ := C119_regular_partial (half true) perm halfCor (half_star true)
    (half_regular true) (half_cov true) (half_size true) e ⟨fun _ _ => 0, fun _ => 0⟩ (fun a => u (1 - a)) vel
  have h2 : ∃ R'', wyResidual (half true) perm (fun _ => 1) (fun _ => 1) (fun a => u (1 - a))
      (fun a => dpdt (1 - a)) e vel R = .ok R'' := by
    unfold wyResidual
    rw [(system_parts hs).1]
    dsimp only
    rw [hv]
    exact ⟨_, rfl⟩
  obtain ⟨R'', hR''⟩ := h2
  refine ⟨R', R'', hR, hR'', ?_⟩
  exact C192_residual strip (half true) perm perm halfView cor halfCor pl halfPl (half_sees true) strip_star
    (half_star true) strip_place (half_place true) strip_map (half_map true)
    (fun c _ => Int.natCast_nonneg c) _ _ u dpdt _ _ _ _ (fun _ _ => rfl) (fun _ _ => rfl) (fun _ _ => rfl)
    (fun _ _ => rfl) e e vel vel R R R' R'' hR hR'' 0 (by decide) (by decide)

end

end TDy.Fe.Props.WySplitWitness
