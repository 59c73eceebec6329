import Verif.Spec.Pflotran
import Mathlib.Tactic.Ring
import Mathlib.Tactic.Linarith

/-!
# C172, C173: meshes in PFLOTRAN format
-/

namespace TDy.Pflotran.Props

open TDy TDy.Pflotran TDy.Pflotran.Spec

/-! ## C172 -/

theorem readMesh_fvTpf (n : Nat) : readMesh .richards .fvTpf n = .ok 1 := by
  simp [readMesh, numFields, remap]

theorem readMesh_no_error (m : Mode) (d : Disc) (n : Nat) :
    readMesh m d n = .ub ∨ ∃ ndof, readMesh m d n = .ok ndof := by
  unfold readMesh
  cases numFields m d with
  | none => exact .inl rfl
  | some ndof =>
    by_cases h : n*ndof ≤ n
    · right; exact ⟨ndof, by simp [remap, h]⟩
    · left; simp [remap, h]

/-- What the set-up leaves in the arrays. -/
def filled (asked : Key → Option Asked) (x : Nat → Fin 3 → ℝ) (k : Key) (i : Nat) : ℝ :=
  match asked k with
  | some a => a.at (x i)
  | none => 0

/-- **C172 (partial: the two-point method and properties that are the same everywhere).**  A mesh in
PFLOTRAN format can be used for Richards' equation with the two-point method when every property is given
by a value. -/
theorem C172_two_point_partial (asked : Key → Option Asked) (x : Nat → Fin 3 → ℝ) (n : Nat)
    (hv : ∀ k a, asked k = some a → ∃ v, a = .value v) :
    Usable .richards .fvTpf asked x n := by
  have hc : ∀ k a0, ∃ a, compute ((asked k).map Asked.fn) none n a0 = .ok a ∧
      a = (match asked k with | some b => (fun i => b.at (x i)) | none => a0) := by
    intro k a0
    cases h : asked k with
    | none => exact ⟨a0, rfl, rfl⟩
    | some a =>
      obtain ⟨v, rfl⟩ := hv k a h
      exact ⟨fun _ => v, rfl, rfl⟩
  have hs : setup .pflotran .fvTpf (fun k => (asked k).map Asked.fn) x n = .ok (filled asked x) := by
    unfold setup initMaterials coordinates
    dsimp only
    obtain ⟨a1, e1, f1⟩ := hc .permeability (fun _ => 0)
    obtain ⟨a2, e2, f2⟩ := hc .porosity (fun _ => 0)
    obtain ⟨a3, e3, f3⟩ := hc .residualSaturation (fun _ => 0)
    obtain ⟨a4, e4, f4⟩ := hc .thermalConductivity (fun _ => 0)
    obtain ⟨a5, e5, f5⟩ := hc .specificHeat (fun _ => 0)
    obtain ⟨a6, e6, f6⟩ := hc .density (fun _ => 0)
    simp only [Res.bind, e1, e2, e3, e4, e5, e6, reduceCtorEq, if_false]
    congr 1
    funext k i
    cases k <;> simp only [reduceCtorEq, if_true, if_false, filled, f1, f2, f3, f4, f5, f6] <;> split <;> rfl
  refine ⟨filled asked x, ?_, ?_⟩
  · simp only [prepare, readMesh_fvTpf, hs]; rfl
  · intro k a h i _
    simp only [filled, h]

/-- The same with a mesh of `DMPlex`: there functions of the place are evaluated at the centroids. -/
theorem C172_plex_functions (asked : Key → Option Asked) (x : Nat → Fin 3 → ℝ) (n : Nat) :
    ∃ v, setup .plex .fvTpf (fun k => (asked k).map Asked.fn) x n = .ok v ∧
      ∀ k a, asked k = some a → ∀ i < n, v k i = a.at (x i) := by
  have hc : ∀ k a0, ∃ a, compute ((asked k).map Asked.fn) (some x) n a0 = .ok a ∧
      a = (match asked k with | some b => (fun i => b.at (x i)) | none => a0) := by
    intro k a0
    cases h : asked k with
    | none => exact ⟨a0, rfl, rfl⟩
    | some a => cases a <;> exact ⟨_, rfl, rfl⟩
  refine ⟨filled asked x, ?_, fun k a h i _ => by simp only [filled, h]⟩
  unfold setup initMaterials coordinates
  dsimp only
  obtain ⟨a1, e1, f1⟩ := hc .permeability (fun _ => 0)
  obtain ⟨a2, e2, f2⟩ := hc .porosity (fun _ => 0)
  obtain ⟨a3, e3, f3⟩ := hc .residualSaturation (fun _ => 0)
  obtain ⟨a4, e4, f4⟩ := hc .thermalConductivity (fun _ => 0)
  obtain ⟨a5, e5, f5⟩ := hc .specificHeat (fun _ => 0)
  obtain ⟨a6, e6, f6⟩ := hc .density (fun _ => 0)
  simp only [Res.bind, e1, e2, e3, e4, e5, e6, reduceCtorEq, if_false]
  congr 1
  funext k i
  cases k <;> simp only [reduceCtorEq, if_true, if_false, filled, f1, f2, f3, f4, f5, f6] <;> split <;> rfl

/-- With the first function of the place on a PFLOTRAN mesh the set-up is undefined: the coordinates are
NULL. -/
theorem C172_functions_undefined (asked : Key → Option Asked) (x : Nat → Fin 3 → ℝ) (n : Nat) (hn : 0 < n)
    (k : Key) (f : (Fin 3 → ℝ) → ℝ) (hk : asked k = some (.function f)) :
    prepare .richards .fvTpf (fun k => (asked k).map Asked.fn) x n = .ub := by
  have hn' : n ≠ 0 := by omega
  have hc : ∀ k a0, (∃ a, compute ((asked k).map Asked.fn) none n a0 = .ok a) ∨
      compute ((asked k).map Asked.fn) none n a0 = .ub := by
    intro k a0
    cases h : asked k with
    | none => exact .inl ⟨a0, rfl⟩
    | some a =>
      cases a with
      | value v => exact .inl ⟨_, rfl⟩
      | function f =>
        right
        simp only [Option.map, compute, Asked.fn, spatial, hn', if_false]
  have hu : ∀ a0, compute ((asked k).map Asked.fn) none n a0 = .ub := by
    intro a0
    simp only [hk, Option.map, compute, Asked.fn, spatial, hn', if_false]
  suffices hs : setup .pflotran .fvTpf (fun k => (asked k).map Asked.fn) x n = .ub by
    simp only [prepare, readMesh_fvTpf, hs]
  unfold setup initMaterials coordinates
  dsimp only
  rcases hc .permeability (fun _ => 0) with ⟨a1, e1⟩ | e1
  · rcases hc .porosity (fun _ => 0) with ⟨a2, e2⟩ | e2
    · rcases hc .residualSaturation (fun _ => 0) with ⟨a3, e3⟩ | e3
      · rcases hc .thermalConductivity (fun _ => 0) with ⟨a4, e4⟩ | e4
        · rcases hc .specificHeat (fun _ => 0) with ⟨a5, e5⟩ | e5
          · rcases hc .density (fun _ => 0) with ⟨a6, e6⟩ | e6
            · exfalso
              have := hu (fun _ => 0)
              cases k <;> simp_all
            · simp only [Res.bind, e1, e2, e3, e4, e5, e6, reduceCtorEq, if_false]
          · simp only [Res.bind, e1, e2, e3, e4, e5, reduceCtorEq, if_false]
        · simp only [Res.bind, e1, e2, e3, e4, reduceCtorEq, if_false]
      · simp only [Res.bind, e1, e2, e3, reduceCtorEq, if_false]
    · simp only [Res.bind, e1, e2, reduceCtorEq, if_false]
  · simp only [Res.bind, e1]

/-- The DAE form of MPFA-O goes through on a rank without cells: two unknowns, and no property is
evaluated. -/
theorem C172_dae_without_cells (mat : Key → Option Fn) (x : Nat → Fin 3 → ℝ) :
    prepare .richards .mpfaODae mat x 0 = .ok (2, fun _ _ => 0) := by
  simp [prepare, readMesh, numFields, remap, setup]

/-- The pairs of mode and method that are accepted are the ones with a number of unknowns, and TH with
MPFA-O, for which the pointer to the function that gives it is not set. -/
theorem C172_accepted_pairs (m : Mode) (d : Disc) :
    accepted m d = true ↔ (numFields m d).isSome = true ∨ (m = .th ∧ d = .mpfaO) := by
  cases m <;> cases d <;> simp [accepted, numFields]

/-- The other methods are undefined on a PFLOTRAN mesh, in every mode and for every choice of properties,
even on a rank without cells but for the DAE form. -/
theorem C172_other_methods_undefined (m : Mode) (d : Disc) (mat : Key → Option Fn) (x : Nat → Fin 3 → ℝ)
    (n : Nat) (hn : d = .mpfaODae → 0 < n) (hd : d ≠ .fvTpf) : prepare m d mat x n = .ub := by
  by_cases hdae : d = .mpfaODae
  · have hn := hn hdae
    subst hdae
    have h2 : ¬ n*2 ≤ n := by omega
    have h : readMesh m .mpfaODae n = .ub := by
      cases m <;> simp [readMesh, numFields, remap, h2]
    simp only [prepare, h]
  · have hs : setup .pflotran d mat x n = .ub := by
      cases d <;> first | rfl | exact absurd rfl hd | exact absurd rfl hdae
    rcases readMesh_no_error m d n with h | ⟨ndof, h⟩
    · simp only [prepare, h]
    · simp only [prepare, h, hs]

/-- Two unknowns make reading the mesh undefined already: the array of places has one entry for each cell
and is read once for each unknown.  In TH mode a pointer that was never set is called before that. -/
theorem C172_reading_two_unknowns (m : Mode) (d : Disc) (n : Nat) (hn : 0 < n) (hu : unknowns m d = 2) :
    readMesh m d n = .ub := by
  have h2 : ¬ n*2 ≤ n := by omega
  cases m <;> cases d <;> simp_all [readMesh, numFields, remap, unknowns]

/-- **C172 fails**: the permeability as a function of the place, for the two-point method. -/
theorem C172_violated : ¬ ∀ (m : Mode) (d : Disc) (asked : Key → Option Asked) (x : Nat → Fin 3 → ℝ) (n : Nat),
    accepted m d = true → Usable m d asked x n := by
  intro h
  obtain ⟨v, e, -⟩ := h .richards .fvTpf (fun _ => some (.function (fun p => p 2))) (fun _ _ => 0) 1 rfl
  have hu := C172_functions_undefined (fun _ => some (.function (fun p => p 2))) (fun _ _ => 0) 1 (by decide)
    .permeability _ rfl
  rw [hu] at e
  cases e

namespace PflotranWitness

/-- Three properties given by values. -/
noncomputable def asked : Key → Option Asked
  | .permeability => some (.value 2)
  | .porosity => some (.value (1/4))
  | .residualSaturation => some (.value 0)
  | _ => none

example : ∀ k a, asked k = some a → ∃ v, a = .value v := by
  intro k a h; cases k <;> simp [asked] at h <;> exact ⟨_, h.symm⟩

example : ∃ v, prepare .richards .fvTpf (fun k => (asked k).map Asked.fn) (fun _ _ => 0) 5 = .ok (1, v) ∧
    v .porosity 3 = 1/4 := by
  obtain ⟨v, e, h⟩ := C172_two_point_partial asked (fun _ _ => 0) 5
    (by intro k a h; cases k <;> simp [asked] at h <;> exact ⟨_, h.symm⟩)
  exact ⟨v, e, h .porosity _ rfl 3 (by decide)⟩

example : accepted .th .mpfaO = true ∧ unknowns .th .mpfaO = 2 ∧ readMesh .th .mpfaO 4 = .ub :=
  ⟨rfl, rfl, C172_reading_two_unknowns _ _ _ (by decide) rfl⟩

end PflotranWitness

/-! ## C173 -/

section
variable {α : Type}

theorem copyInner (ndof : Nat) (s d : Nat) (x y : Nat → α) (q : Nat) :
    forN ndof (fun k y => wr y (d*ndof + k) (x (s*ndof + k))) y q
      = if d*ndof ≤ q ∧ q < d*ndof + ndof then x (s*ndof + (q - d*ndof)) else y q := by
  have key : ∀ m, forN m (fun k y => wr y (d*ndof + k) (x (s*ndof + k))) y q
      = if d*ndof ≤ q ∧ q < d*ndof + m then x (s*ndof + (q - d*ndof)) else y q := by
    intro m
    induction m with
    | zero => simp only [forN]; rw [if_neg (by omega)]
    | succ m ih =>
      simp only [forN, wr]
      by_cases h : q = d*ndof + m
      · rw [if_pos h, if_pos (by omega)]; congr 1; omega
      · rw [if_neg h, ih]
        by_cases h1 : d*ndof ≤ q ∧ q < d*ndof + m
        · rw [if_pos h1, if_pos (by omega)]
        · rw [if_neg h1, if_neg (by omega)]
  exact key ndof

/-- Entry `k` of block `d` lies in no other block. -/
theorem block_unique {ndof d d' k : Nat} (hk : k < ndof) :
    (d'*ndof ≤ d*ndof + k ∧ d*ndof + k < d'*ndof + ndof) ↔ d' = d := by
  constructor
  · rintro ⟨h1, h2⟩
    have a : d' < d + 1 := by
      by_contra h
      have : (d + 1)*ndof ≤ d'*ndof := Nat.mul_le_mul_right _ (by omega)
      rw [Nat.add_mul, Nat.one_mul] at this
      omega
    have b : d < d' + 1 := by
      by_contra h
      have : (d' + 1)*ndof ≤ d*ndof := Nat.mul_le_mul_right _ (by omega)
      rw [Nat.add_mul, Nat.one_mul] at this
      omega
    omega
  · rintro rfl; omega

/-- A copy with distinct targets delivers every block. -/
theorem copyBlocks_at (m ndof : Nat) (src dst : Nat → Nat) (x y : Nat → α) (i k : Nat) (hi : i < m)
    (hk : k < ndof) (hinj : ∀ a b, a < m → b < m → dst a = dst b → a = b) :
    copyBlocks m ndof src dst x y (dst i*ndof + k) = x (src i*ndof + k) := by
  unfold copyBlocks
  induction m with
  | zero => omega
  | succ m ih =>
    rw [forN, copyInner]
    by_cases h : dst m = dst i
    · rw [if_pos ((block_unique hk).2 h)]
      have := hinj m i (by omega) hi h
      subst this
      congr 1; omega
    · rw [if_neg (fun hh => h ((block_unique hk).1 hh))]
      rcases Nat.lt_succ_iff_lt_or_eq.1 hi with h' | h'
      · exact ih h' (fun a b ha hb => hinj a b (by omega) (by omega))
      · exact absurd (by rw [h']) h

theorem copyBlocks_other (m ndof : Nat) (src dst : Nat → Nat) (x y : Nat → α) (d k : Nat)
    (hk : k < ndof) (hd : ∀ i < m, dst i ≠ d) :
    copyBlocks m ndof src dst x y (d*ndof + k) = y (d*ndof + k) := by
  unfold copyBlocks
  induction m with
  | zero => rfl
  | succ m ih =>
    rw [forN, copyInner, if_neg (fun hh => hd m (by omega) ((block_unique hk).1 hh))]
    exact ih (fun i hi => hd i (by omega))

/-- Every PETSc number belongs to one cell of one rank. -/
theorem offset_find (n : Nat → Nat) : ∀ R p, p < offset n R → ∃ r < R, ∃ i < n r, p = i + offset n r := by
  intro R
  induction R with
  | zero => intro p h; simp [offset] at h
  | succ R ih =>
    intro p h
    by_cases h1 : p < offset n R
    · obtain ⟨r, hr, i, hi, e⟩ := ih p h1
      exact ⟨r, by omega, i, hi, e⟩
    · exact ⟨R, by omega, p - offset n R, by simp only [offset] at h; omega, by omega⟩

theorem offset_mono (n : Nat → Nat) {r s : Nat} (h : r < s) : offset n r + n r ≤ offset n s := by
  induction s with
  | zero => omega
  | succ s ih =>
    rcases Nat.lt_succ_iff_lt_or_eq.1 h with h' | h'
    · have := ih h'; simp only [offset]; omega
    · subst h'; simp [offset]

/-- After the exchange, a cell of rank `r` has the values of the global vector at its PETSc number. -/
theorem globalToLocal_at (n : Nat → Nat) (ghosts : Nat → Nat → Nat) (ng : Nat → Nat) (ndof r : Nat)
    (g loc : Nat → α) (i k : Nat) (hi : i < ng r) (hk : k < ndof) :
    globalToLocal n ghosts ng ndof r g loc (i*ndof + k) = g (ghostedInGlobal n ghosts r i*ndof + k) :=
  copyBlocks_at (ng r) ndof _ ghostedInLocal g loc i k hi hk (fun _ _ _ _ h => h)

theorem localToGlobal_at (n : Nat → Nat) (ndof R : Nat) (loc : Nat → Nat → α) (g : Nat → α) (r i k : Nat)
    (hr : r < R) (hi : i < n r) (hk : k < ndof) :
    localToGlobal n ndof R loc g ((i + offset n r)*ndof + k) = loc r (i*ndof + k) := by
  unfold localToGlobal
  induction R with
  | zero => omega
  | succ R ih =>
    rw [forN]
    rcases Nat.lt_succ_iff_lt_or_eq.1 hr with h' | h'
    · rw [copyBlocks_other _ _ _ _ _ _ _ _ hk]
      · exact ih h'
      · intro j _ e
        have := offset_mono n h'
        simp only [localInGlobal] at e
        omega
    · subst h'
      exact copyBlocks_at (n r) ndof localInLocal (localInGlobal n r) _ _ i k hi hk
        (fun a b _ _ h => by simp only [localInGlobal] at h; omega)

/-- **C173 (partial: conversions between global and local vectors).**  A global vector that is taken to
the local vectors of all ranks and back is unchanged, for every distribution of the cells and every number
of unknowns. -/
theorem C173_round_trip_partial (n : Nat → Nat) (ghosts : Nat → Nat → Nat) (ng : Nat → Nat) (ndof R : Nat)
    (hng : ∀ r < R, n r ≤ ng r) (g g0 : Nat → α) (loc : Nat → Nat → α) (q : Nat) (hq : q < offset n R*ndof) :
    localToGlobal n ndof R (fun r => globalToLocal n ghosts ng ndof r g (loc r)) g0 q = g q := by
  have hd : 0 < ndof := by
    rcases Nat.eq_zero_or_pos ndof with h | h
    · subst h; omega
    · exact h
  have hk : q % ndof < ndof := Nat.mod_lt _ hd
  have hp : q / ndof < offset n R := Nat.div_lt_of_lt_mul (by rw [Nat.mul_comm]; exact hq)
  obtain ⟨r, hr, i, hi, e⟩ := offset_find n R _ hp
  have hq' : q = (i + offset n r)*ndof + q % ndof := by
    rw [← e, Nat.mul_comm]; exact (Nat.div_add_mod q ndof).symm
  rw [hq', localToGlobal_at n ndof R _ g0 r i _ hr hi hk,
    globalToLocal_at n ghosts ng ndof r g (loc r) i _ (by have := hng r hr; omega) hk]
  simp only [ghostedInGlobal, if_pos hi]

theorem sent_at (n : Nat → Nat) (ndof R : Nat) (map : Nat → Nat → Nat) (x : Nat → Nat → α) (g : Nat → α)
    (s e : Nat) (hs : s < R) (he : e < n s*ndof) :
    forN R (fun s g => forN (n s*ndof) (fun e g => wr g (offset n s*ndof + e) (x s (map s e))) g) g
      (offset n s*ndof + e) = x s (map s e) := by
  induction R with
  | zero => omega
  | succ R ih =>
    rw [forN]
    rcases Nat.lt_succ_iff_lt_or_eq.1 hs with h' | h'
    · rw [forN_scatter_other]
      · exact ih h'
      · intro i _ h
        have := offset_mono n h'
        have h2 : (offset n s + n s)*ndof ≤ offset n R*ndof := Nat.mul_le_mul_right _ this
        rw [Nat.add_mul] at h2
        omega
    · subst h'
      exact forN_scatter (n s*ndof) (fun e => offset n s*ndof + e) (fun e => x s (map s e)) _
        (fun i j _ _ h => by omega) e he

/-- **C173 (partial: one unknown).**  With one unknown in each cell, refreshing the ghost cells within
local vectors gives every ghost cell the value its owner holds, and keeps the values of owned cells. -/
theorem C173_refresh_partial (n : Nat → Nat) (ghosts : Nat → Nat → Nat) (ng : Nat → Nat) (R r : Nat)
    (hr : r < R) (hng : n r ≤ ng r) (x : Nat → Nat → α) (y : Nat → α) :
    ∃ map : Nat → Nat → Nat, (∀ s, remap n 1 s = .ok (map s)) ∧
      (∀ i < n r, localToLocal n ghosts ng 1 R r map x y i = x r i) ∧
      (∀ i, n r ≤ i → i < ng r → ∀ s < R, ∀ j < n s, ghosts r (i - n r) = j + offset n s →
        localToLocal n ghosts ng 1 R r map x y i = x s j) := by
  refine ⟨fun _ e => e, fun s => ?_, ?_, ?_⟩
  · simp [remap, localInLocal, Nat.mod_one]
  · intro i hi
    have e1 := globalToLocal_at n ghosts ng 1 r
      (forN R (fun s g => forN (n s*1) (fun e g => wr g (offset n s*1 + e) (x s e)) g) (x r)) y i 0
      (by omega) (by decide)
    have e2 := sent_at n 1 R (fun _ e => e) x (x r) r i hr (by omega)
    simp only [Nat.mul_one, Nat.add_zero, ghostedInGlobal, if_pos hi] at e1 e2
    simp only [localToLocal, Nat.mul_one]
    rw [e1, Nat.add_comm]; exact e2
  · intro i h1 h2 s hs j hj e
    have e1 := globalToLocal_at n ghosts ng 1 r
      (forN R (fun s g => forN (n s*1) (fun e g => wr g (offset n s*1 + e) (x s e)) g) (x r)) y i 0
      h2 (by decide)
    have e2 := sent_at n 1 R (fun _ e => e) x (x r) s j hs (by omega)
    simp only [Nat.mul_one, Nat.add_zero, ghostedInGlobal, if_neg (by omega : ¬ i < n r), e] at e1 e2
    simp only [localToLocal, Nat.mul_one]
    rw [e1, Nat.add_comm]; exact e2

end

/-- With two or more unknowns this scatter cannot be made on a rank that owns a cell. -/
theorem C173_refresh_undefined (n : Nat → Nat) (ndof r : Nat) (hd : 2 ≤ ndof) (hn : 0 < n r) :
    remap n ndof r = .ub := by
  have : ¬ n r*ndof ≤ n r := by
    have : n r*2 ≤ n r*ndof := Nat.mul_le_mul_left _ hd
    omega
  simp [remap, this]

/-- **C173 fails**: two unknowns, one cell. -/
theorem C173_violated : ¬ ∀ (n : Nat → Nat) (ndof r : Nat), ∃ map, remap n ndof r = .ok map := by
  intro h
  obtain ⟨m, e⟩ := h (fun _ => 1) 2 0
  rw [C173_refresh_undefined (fun _ => 1) 2 0 (by decide) (by decide)] at e
  cases e

namespace ScatterWitness

/-- Two ranks with two cells and one cell, and a ghost cell on each. -/
def n : Nat → Nat := fun r => if r = 0 then 2 else 1
def ghosts : Nat → Nat → Nat := fun r _ => if r = 0 then 2 else 1
def ng : Nat → Nat := fun r => n r + 1

example : ∀ r < 2, n r ≤ ng r := fun r _ => by simp [ng]

/-- The ghost cell of the second rank gets the value of the second cell of the first rank. -/
example : localToLocal n ghosts ng 1 2 1 (fun _ e => e) (fun r i => 10*r + i) (fun _ => 99) 1 = 1 := by decide

example : localToLocal n ghosts ng 1 2 0 (fun _ e => e) (fun r i => 10*r + i) (fun _ => 99) 2 = 10 := by decide

end ScatterWitness

end TDy.Pflotran.Props
