import Verif.Props.WyLinear
import Verif.Props.WyEnergyWitness

/-!
# A mesh that meets the hypotheses of C208: three squares, pressure `1 + 2 x + 3 y`
-/

namespace TDy.Fe.Props.WyLinearWitness

open TDy.Fe TDy.Fe.Spec TDy.Fe.Proofs Finset
open TDy.Fe.Props.WyWitness (sides)
open TDy.Fe.Props.WyEnergyWitness

noncomputable section

/-- The three squares of C183 without a source; the pressure around is `1 + 2 x + 3 y`. -/
def slope : Wy := {trio with pb := fun f => 1 + (2*trio.X f 0 + 3*trio.X f 1), hasForcing := false}

def grad : Fin slope.dim → ℝ := fun k : Fin 2 => if k = 0 then 2 else 3

def slopePl (f v : Nat) : Nat :=
  ([[3, 7], [4, 8], [5, 9], [6, 10], [3, 4], [4, 5], [5, 6], [7, 8], [8, 9], [9, 10]].getD (f - 11) []).idxOf v

theorem slope_linear (a : Nat) : linearAt slope 1 grad a = 1 + (2*trio.X a 0 + 3*trio.X a 1) := by
  show (1:ℝ) + ∑ k : Fin 2, grad k*trio.X a k = _
  rw [Fin.sum_univ_two]
  rfl

theorem slope_star : ∀ v, slope.vStart ≤ v → v < slope.vEnd → Star slope v (trioCor v) := by
  intro v h1 h2
  have h := trio_star v h1 h2
  exact ⟨h.faces_nodup, h.cells_nodup, h.cor_lt, h.cor_at, h.cor_only, h.face_mem, h.face_inj, h.bc_once⟩

theorem slope_place : ∀ v, slope.vStart ≤ v → v < slope.vEnd →
    ∀ f ∈ slope.faces v, Place slope f v (slopePl f v) := by
  intro v h1 h2
  change 3 ≤ v at h1
  change v < 11 at h2
  unfold Place
  interval_cases v <;> decide

theorem slope_out (c f : Nat) : slope.outSign c f = if 0 < (trio.N f 0*(trio.X f 0 - trio.X c 0)
    + trio.N f 1*(trio.X f 1 - trio.X c 1)) then 1
    else if (trio.N f 0*(trio.X f 0 - trio.X c 0)
    + trio.N f 1*(trio.X f 1 - trio.X c 1)) < 0 then -1 else 0 := by
  have h : aDotBMinusC (slope.N f) (slope.X f) (slope.X c) slope.dim
      = trio.N f 0*(trio.X f 0 - trio.X c 0) + trio.N f 1*(trio.X f 1 - trio.X c 1) := by
    show forN 2 _ _ = _
    simp [forN, slope]
  unfold Wy.outSign
  rw [h]
  rcases lt_trichotomy (trio.N f 0*(trio.X f 0 - trio.X c 0)
    + trio.N f 1*(trio.X f 1 - trio.X c 1)) 0 with h | h | h
  · rw [if_pos h, if_neg h.not_gt, if_pos h]
  · rw [h]; simp
  · rw [if_neg h.not_gt, if_neg h.ne', if_pos h]

theorem slope_map : ∀ c < slope.nCells, CellMap slope slopePl c := by
  intro c hc
  change c < 3 at hc
  refine ⟨?_, ?_, ?_, ?_, rfl⟩
  · interval_cases c <;> decide
  · interval_cases c <;> decide
  · intro q hq d hd
    change q < 4 at hq
    change d < 2 at hd
    refine ⟨?_, ?_⟩
    · interval_cases c <;> interval_cases q <;> interval_cases d <;> decide
    · rw [slope_out]
      interval_cases c <;> interval_cases q <;> interval_cases d <;>
        norm_num [Wy.face, Wy.sign, slope, trio, sides]
  · interval_cases c <;> decide

theorem slope_sides : ∀ v, slope.vStart ≤ v → v < slope.vEnd → ∀ f ∈ slope.faces v, ¬ Wy.given slope f →
    Opposite slope v (trioCor v) f := by
  intro v h1 h2 f hf hg
  change 3 ≤ v at h1
  change v < 11 at h2
  have hb : f = 12 ∨ f = 13 := by
    by_contra hn
    push Not at hn
    apply hg
    refine ⟨?_, rfl⟩
    show (f != 12 && f != 13) = true
    simp [hn.1, hn.2]
  have hI : ∑ c ∈ (slope.cells v).toFinset, ∑ i ∈ range 2,
      (if slope.face c (trioCor v c) i = f then (slope.emap c (trioCor v c*2 + i)).sign else 0) = 0 := by
    rcases hb with rfl | rfl
    · have : v = 4 ∨ v = 8 := by
        have : ∀ v < 11, 12 ∈ slope.faces v → v = 4 ∨ v = 8 := by decide
        exact this v h2 hf
      rcases this with rfl | rfl <;> decide
    · have : v = 5 ∨ v = 9 := by
        have : ∀ v < 11, 13 ∈ slope.faces v → v = 5 ∨ v = 9 := by decide
        exact this v h2 hf
      rcases this with rfl | rfl <;> decide
  have hcast := congrArg (Int.cast : Int → ℝ) hI
  unfold Opposite
  refine Eq.trans ?_ (hcast.trans Int.cast_zero)
  rw [Int.cast_sum]
  refine sum_congr rfl fun c _ => ?_
  show ∑ i ∈ range 2, _ = _
  rw [Int.cast_sum]
  refine sum_congr rfl fun i _ => ?_
  by_cases h : slope.face c (trioCor v c) i = f
  · rw [if_pos h, if_pos h]
    rfl
  · rw [if_neg h, if_neg h, Int.cast_zero]

/-- Centroids and normals in whole numbers. -/
def xInt (a k : Nat) : Int :=
  if k = 0 then ([1, 3, 5, 0, 0, 0, 0, 0, 0, 0, 0, 0, 2, 4, 6, 1, 3, 5, 1, 3, 5].getD a 0 : Nat)
  else ([1, 1, 1, 0, 0, 0, 0, 0, 0, 0, 0, 1, 1, 1, 1, 0, 0, 0, 2, 2, 2].getD a 0 : Nat)

def nInt (f k : Nat) : Int := if f < 15 then (if k = 0 then 1 else 0) else (if k = 0 then 0 else 1)

def cInt (q i : Nat) : Int := if q.testBit i then 1 else -1

def dInt (k i : Nat) : Int := if k = i then 1 else 0

theorem slope_x (a k : Nat) : slope.X a k = xInt a k := by
  show (if k = 0 then _ else _ : ℝ) = ((if k = 0 then _ else _ : Int) : ℝ)
  split <;> rw [Int.cast_natCast]

theorem slope_n (f k : Nat) : slope.N f k = nInt f k := by
  show (if f < 15 then (if k = 0 then 1 else 0) else (if k = 0 then 0 else 1) : ℝ) = _
  unfold nInt
  split <;> split <;> simp

theorem slope_c (q i : Nat) : cornerSide q i = cInt q i := by
  unfold cornerSide cInt
  split <;> simp

theorem slope_d (k i : Fin 2) : (1 : Matrix (Fin 2) (Fin 2) ℝ) k i = dInt k i := by
  fin_cases k <;> fin_cases i <;> simp [dInt]

theorem slope_affine : ∀ c < slope.nCells,
    Affine slope c (1 : Matrix (Fin 2) (Fin 2) ℝ) := by
  intro c hc
  change c < 3 at hc
  refine ⟨?_, ?_, ?_, ?_, ?_, ?_⟩
  · show 0 < (1 : Matrix (Fin 2) (Fin 2) ℝ).det
    rw [Matrix.det_one]
    exact one_pos
  · intro q _
    show toMatrix 2 _ = (1 : Matrix (Fin 2) (Fin 2) ℝ)⁻¹
    rw [inv_one]
    exact (perm_scalar 1).trans (one_smul _ _)
  · intro q _
    show (1:ℝ) = (1 : Matrix (Fin 2) (Fin 2) ℝ).det
    rw [Matrix.det_one]
  · intro q hq i k
    have h : ∀ c < 3, ∀ q < 4, ∀ i k : Fin 2,
        xInt (slope.face c q i) k = xInt c k + cInt q i*dInt k i := by decide
    have h' := congrArg (Int.cast : Int → ℝ) (h c hc q hq i k)
    rw [Int.cast_add, Int.cast_mul] at h'
    rw [slope_x, slope_x, slope_c, h']
    congr 2
    exact (slope_d k i).symm
  · intro q hq i j hij
    have h : ∀ c < 3, ∀ q < 4, ∀ i j : Fin 2, j ≠ i →
        ∑ k : Fin 2, nInt (slope.face c q i) k*dInt k j = 0 := by decide
    have h' := congrArg (Int.cast : Int → ℝ) (h c hc q hq i j hij)
    rw [Int.cast_sum, Int.cast_zero] at h'
    refine Eq.trans (sum_congr rfl fun k _ => ?_) h'
    rw [Int.cast_mul, slope_n]
    exact congrArg _ (slope_d k j)
  · intro q hq i
    have h : ∀ c < 3, ∀ q < 4, ∀ i : Fin 2, 2*((slope.emap c (q*2 + i)).sign
        *∑ k : Fin 2, nInt (slope.face c q i) k*(2*cInt q i*dInt k i)) = 2^2 := by decide
    have h' := congrArg (Int.cast : Int → ℝ) (h c hc q hq i)
    rw [Int.cast_mul, Int.cast_mul, Int.cast_sum] at h'
    have hV : slope.V (slope.face c q i) = 2 := by
      have : ∀ c < 3, ∀ q < 4, ∀ i : Fin 2, ¬ slope.face c q i < 3 := by decide
      exact if_neg (this c hc q hq i)
    rw [hV]
    have hdet : (1 : Matrix (Fin slope.dim) (Fin slope.dim) ℝ).det = 1 := Matrix.det_one
    refine Eq.trans ?_ (h'.trans ?_)
    · refine congrArg₂ _ (by norm_num) (congrArg₂ _ rfl (sum_congr rfl fun k _ => ?_))
      rw [slope_n, slope_c, Int.cast_mul, Int.cast_mul, Int.cast_mul]
      refine congrArg₂ _ rfl (congrArg₂ _ (by norm_num) (slope_d k i))
    · refine Eq.trans ?_ (congrArg (fun x : ℝ => 2^2*x) hdet.symm)
      norm_num

theorem slope_perm : ∀ c < slope.nCells,
    (toMatrix slope.dim (perm (fun _ => 1) c)).mulVec grad = grad := by
  intro c _
  show (toMatrix 2 _).mulVec _ = _
  unfold perm
  rw [perm_scalar, one_smul]
  exact Matrix.one_mulVec (m := Fin 2) _

theorem slope_regular : ∀ c < slope.nCells, Regular slope (perm fun _ => 1) c := fun c hc =>
  trio_regular (fun _ => one_pos) c hc

theorem slope_cov : ∀ v, slope.vStart ≤ v → v < slope.vEnd → ∀ f ∈ slope.faces v,
    Covered slope v (trioCor v) f := fun v h1 h2 f hf => trio_cov v h1 h2 f hf

theorem slope_numbers : GlobalNumbers slope id := ⟨by decide, fun _ _ _ _ h => h⟩

theorem slope_tied : Tied slope trioCor := by
  intro c hc
  obtain ⟨c', -, v, f, h1, h2, h3, ⟨h4, h5, h6⟩⟩ := trio_tied c hc
  change c < 3 at hc
  refine ⟨c, .refl, ?_⟩
  have : AtBoundary trio trioCor c := by
    interval_cases c
    · exact trio_outside (.inl ⟨rfl, rfl, rfl⟩)
    · exact trio_outside (.inr (.inl ⟨rfl, rfl, rfl⟩))
    · exact trio_outside (.inr (.inr ⟨rfl, rfl, rfl⟩))
  obtain ⟨v, f, h1, h2, h3, ⟨h4, h5, h6⟩⟩ := this
  exact ⟨v, f, h1, h2, h3, ⟨h4, h5, h6⟩⟩

theorem slope_lost {l : Local} (hl : ∀ c < slope.nCells, LocalIs slope (perm fun _ => 1) l c) {s t : Sys}
    (ht : forN (slope.vEnd - slope.vStart)
      (fun k (r : Res Sys) => r.bind (systemVertex slope l.A (slope.vStart + k))) (.ok s) = .ok t) :
    ∀ v, slope.vStart ≤ v → v < slope.vEnd → NothingLost slope l.A v := by
  intro v h1 h2
  obtain ⟨x, y, hxy⟩ := vertices_ok ht (v - slope.vStart) (by omega)
  rw [show slope.vStart + (v - slope.vStart) = v by omega] at hxy
  have hl' : ∀ c < trio.nCells, LocalIs trio (perm fun _ => 1)
      ⟨l.A, fun c => if trio.hasForcing then ∑ q ∈ range trio.nq, trio.force c q*trio.J c q else 0⟩ c :=
    fun c hc => ⟨(hl c hc).1, rfl⟩
  exact nothing_lost (slope_star v h1 h2) hxy (trio_entries hl' v h1 h2)

/-- The solution of the assembled system is `1 + 2 x + 3 y`: 6, 10 and 14 in the three cells. -/
example (l : Local) : ∃ l' s',
    wyComputeSystem slope (perm fun _ => 1) l ⟨fun _ _ => 0, fun _ => 0⟩ = .ok (l', s') ∧
    (∃ p, SolvesCells slope id s'.K s'.F p) ∧
    ∀ p, SolvesCells slope id s'.K s'.F p → p 0 = 6 ∧ p 1 = 10 ∧ p 2 = 14 := by
  obtain ⟨l', s', hok, _⟩ := C119_regular_partial slope (perm fun _ => 1) trioCor slope_star slope_regular
    slope_cov trio_size l ⟨fun _ _ => 0, fun _ => 0⟩ (fun _ => 0) (fun _ _ => 0)
  obtain ⟨hl, t, ht, _⟩ := system_parts hok
  obtain ⟨h1, h2⟩ := C208_solution_is_linear_partial slope _ l l' _ s' trioCor slopePl id slope_numbers
    (by decide) slope_star slope_place slope_sides slope_map rfl slope_regular slope_cov trio_size
    (slope_lost (local_ok hl) ht) slope_tied rfl (fun _ => (1 : Matrix (Fin 2) (Fin 2) ℝ)) slope_affine 1
    grad grad slope_perm (fun f _ => (slope_linear f).symm) ⟨fun _ _ => rfl, fun _ => rfl⟩ hok
  refine ⟨l', s', hok, ⟨_, h1⟩, fun p hp => ?_⟩
  have h := h2 p hp
  refine ⟨?_, ?_, ?_⟩
  · rw [h 0 (by decide), slope_linear]
    norm_num [trio]
  · rw [h 1 (by decide), slope_linear]
    norm_num [trio]
  · rw [h 2 (by decide), slope_linear]
    norm_num [trio]

/-- Velocities of that pressure: -2 through the upright faces and -3 through the others, at every vertex;
nothing accumulates. -/
example (l : Local) (vel : Nat → Nat → ℝ) (R : Nat → ℝ) : ∃ R',
    wyResidual slope (perm fun _ => 1) (fun _ => 1) (fun _ => 1) (fun c => 6 + 4*c) (fun _ => 0) l vel R
      = .ok R' ∧
    ∀ c < 3, R' c = 0 := by
  obtain ⟨l', s', hok, vel', hv⟩ := C119_regular_partial slope (perm fun _ => 1) trioCor slope_star slope_regular
    slope_cov trio_size l ⟨fun _ _ => 0, fun _ => 0⟩ (fun c => 6 + 4*c) vel
  obtain ⟨hl, -⟩ := system_parts hok
  have hres : ∃ R', wyResidual slope (perm fun _ => 1) (fun _ => 1) (fun _ => 1) (fun c => 6 + 4*c)
      (fun _ => 0) l vel R = .ok R' := by
    unfold wyResidual
    rw [hl]
    dsimp only
    rw [hv]
    exact ⟨_, rfl⟩
  obtain ⟨R', hR'⟩ := hres
  refine ⟨R', hR', fun c hc => ?_⟩
  have h := C208_steady slope _ l _ _ _ _ vel R R' trioCor slopePl slope_star slope_place slope_sides
    (fun c hc _ => slope_map c hc) rfl (fun _ => (1 : Matrix (Fin 2) (Fin 2) ℝ)) slope_affine 1 grad grad
    slope_perm (fun c hc => by
      change c < 3 at hc
      rw [slope_linear]
      interval_cases c <;> norm_num [trio]) (fun f _ => (slope_linear f).symm) hR' c hc
      (by show (0:Int) ≤ (c:Int); omega)
  rw [h]
  show (1:ℝ)*1*0 - 0 = 0
  ring

example (l l' : Local) (vel vel' : Nat → Nat → ℝ)
    (hl : localElementCompute slope (perm fun _ => 1) l = .ok l')
    (hv : wyRecoverVelocity slope l'.A (fun c => 6 + 4*c) vel = .ok vel') :
    vel' 12 0 = -2 ∧ vel' 12 1 = -2 ∧ vel' 16 0 = -3 ∧ vel' 16 1 = -3 := by
  have h := C208_exact_velocities slope _ l l' _ vel vel' trioCor slopePl slope_star slope_place slope_sides
    (fun _ => (1 : Matrix (Fin 2) (Fin 2) ℝ)) slope_affine 1 grad grad
    slope_perm (fun c hc => by
      change c < 3 at hc
      rw [slope_linear]
      interval_cases c <;> norm_num [trio]) (fun f _ => (slope_linear f).symm) hl hv
  have e : ∀ f, normalVelocity slope grad f = -(2*trio.N f 0 + 3*trio.N f 1) := by
    intro f
    show -∑ k : Fin 2, grad k*trio.N f k = _
    rw [Fin.sum_univ_two]
    rfl
  refine ⟨(h 4 (by decide) (by decide) 12 (by decide)).trans ?_,
    (h 8 (by decide) (by decide) 12 (by decide)).trans ?_,
    (h 4 (by decide) (by decide) 16 (by decide)).trans ?_,
    (h 5 (by decide) (by decide) 16 (by decide)).trans ?_⟩ <;> rw [e] <;> norm_num [trio]

end

end TDy.Fe.Props.WyLinearWitness
