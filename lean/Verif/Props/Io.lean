import Verif.Model.Io
import Verif.Spec.Io
import Verif.Spec.Slots
import Verif.Spec.UGrid
import Verif.Proofs.UGridRecords
import Verif.Props.Slots
import Verif.Props.UGridOrder
import Mathlib.Tactic.NormNum
import Mathlib.Tactic.Linarith
import Mathlib.Tactic.IntervalCases

/-!
# Theorems about files and regression samples
-/

namespace TDy.Io.Props

open TDy.Io.Spec TDy.Slots.Spec TDy.UGrid TDy.UGrid.Spec TDy.UGrid.Proofs TDy.UGrid.Props

noncomputable section

/-! ## C72: variables read from file -/

theorem copyOut_apply (n : Nat) (ptr : Nat → ℝ) (b : Buf) (h : n ≤ b.size) :
    ∃ v, copyOut n ptr b = some ⟨b.size, v⟩ ∧ ∀ k, v k = if k < n then ptr k else b.val k := by
  induction n with
  | zero => exact ⟨b.val, rfl, fun k => by simp⟩
  | succ n ih =>
    obtain ⟨v, h1, h2⟩ := ih (by omega)
    refine ⟨wr v n (ptr n), ?_, fun k => ?_⟩
    · unfold copyOut at h1 ⊢
      simp only [forN]
      rw [h1, Option.bind_some, Buf.store, if_pos (by simp only []; omega)]
    · by_cases e : k = n
      · rw [e, wr_same, if_pos (by omega)]
      · rw [wr_other _ _ e, h2]
        by_cases hk : k < n
        · rw [if_pos hk, if_pos (by omega)]
        · rw [if_neg hk, if_neg (by omega)]

/-- C72.  The buffer is guarded at its end: a copy of `n` values leaves it exactly if it has fewer than
`n` elements. -/
theorem C72_copy_fits_iff (n : Nat) (ptr : Nat → ℝ) (b : Buf) :
    (copyOut n ptr b).isSome ↔ n ≤ b.size := by
  constructor
  · intro h
    by_contra hc
    obtain ⟨v, h1, _⟩ := copyOut_apply b.size ptr b (Nat.le_refl _)
    have hnone : ∀ m, b.size < m → copyOut m ptr b = none := by
      intro m hm
      induction m with
      | zero => omega
      | succ m ih =>
        unfold copyOut at h1 ih ⊢
        simp only [forN]
        rcases Nat.lt_or_ge b.size m with hlt | hge
        · rw [ih hlt]; rfl
        · obtain rfl : m = b.size := by omega
          rw [h1, Option.bind_some, Buf.store, if_neg (by simp)]
    rw [hnone n (by omega)] at h
    cases h
  · intro h
    obtain ⟨v, h1, _⟩ := copyOut_apply n ptr b h
    rw [h1]; rfl

/-- A file of the size of the solution vector is read without leaving the buffer, whatever the number of cells:
the buffer has one element per local unknown and holds the local vector. -/
theorem C72_fits (L : Layout) (g0 l0 : Nat → ℝ) (f : Dataset) (hf : f.len = L.n*L.ndof) :
    ∃ b, readVariable L g0 l0 f = .ok b ∧ b.size = L.ng*L.ndof
      ∧ ∀ k < L.ng*L.ndof, b.val k = naturalToLocal L f.val g0 l0 k := by
  obtain ⟨v, h1, h2⟩ := copyOut_apply (L.ng*L.ndof) (naturalToLocal L f.val g0 l0)
    (alloc (L.ng*L.ndof)) (Nat.le_refl _)
  refine ⟨⟨L.ng*L.ndof, v⟩, ?_, rfl, fun k hk => ?_⟩
  · unfold readVariable
    rw [if_pos hf, h1]
    rfl
  · show v k = _
    rw [h2, if_pos hk]

/-- No file makes the read undefined; one of the wrong size is refused. -/
theorem C72_wrong_size (L : Layout) (g0 l0 : Nat → ℝ) (f : Dataset) (hf : f.len ≠ L.n*L.ndof) :
    ∃ b, readVariable L g0 l0 f = .err b := ⟨alloc 0, by unfold readVariable; rw [if_neg hf]⟩

theorem globalToLocal_apply {α : Type} (ng ndof : Nat) (idx : Nat → ℤ) (g loc : Nat → α) (l : Nat) (hl : l < ng)
    (j : Nat) (hj : j < ndof) :
    globalToLocal ng ndof idx g loc (l*ndof + j) = g ((idx l).toNat*ndof + j) :=
  (blocks_apply ng ndof (fun i => i) (fun i k => g ((idx i).toNat*ndof + k)) (fun _ _ _ _ e => e) loc).1 l hl j hj

theorem naturalToGlobal_apply {α : Type} (n ndof : Nat) (cell : Nat → Nat) (nat g : Nat → α) (p : Nat) (hp : p < n)
    (j : Nat) (hj : j < ndof) :
    naturalToGlobal n ndof cell nat g (p*ndof + j) = nat (cell p*ndof + j) :=
  (blocks_apply n ndof (fun p => p) (fun p k => nat (cell p*ndof + k)) (fun _ _ _ _ e => e) g).1 p hp j hj

/-- The local cell `l` has natural number `c`. -/
def IsCell (L : Layout) (l c : Nat) : Prop :=
  l < L.ng ∧ 0 ≤ L.idx l ∧ (L.idx l).toNat < L.n ∧ L.cell (L.idx l).toNat = c

theorem naturalToLocal_apply (L : Layout) (nat g0 l0 : Nat → ℝ) (l c : Nat) (h : IsCell L l c) (j : Nat)
    (hj : j < L.ndof) : naturalToLocal L nat g0 l0 (l*L.ndof + j) = nat (c*L.ndof + j) := by
  unfold naturalToLocal
  rw [globalToLocal_apply _ _ _ _ _ _ h.1 _ hj, naturalToGlobal_apply _ _ _ _ _ _ h.2.2.1 _ hj, h.2.2.2]

/-- A layout of two ranks' worth of cells: three cells in reverse order, of which this rank sees two. -/
def layout (ndof : Nat) : Layout :=
  ⟨3, ndof, fun p => 2 - p, 2, fun l => if l = 0 then 1 else 0⟩

theorem layout_cells (ndof : Nat) : IsCell (layout ndof) 0 1 ∧ IsCell (layout ndof) 1 2 := by
  constructor <;> exact ⟨by simp [layout], by simp [layout], by simp [layout], by simp [layout]⟩

/-- Non-vacuity: a file of three values is read. -/
example : (⟨3, fun k => (k : ℝ)⟩ : Dataset).len = (layout 1).n*(layout 1).ndof := rfl

/-! ## C71: diagonal tensors -/

theorem loop3 (n : Nat) (tx ty tz t : Nat → ℝ) (i q : Nat) (hq : q < 9) :
    forN n (fun i t => wr (wr (wr t (3*3*i) (tx i)) (3*3*i + 4) (ty i)) (3*3*i + 8) (tz i)) t (9*i + q)
      = if i < n then (if q = 0 then tx i else if q = 4 then ty i else if q = 8 then tz i else t (9*i + q))
        else t (9*i + q) := by
  induction n with
  | zero => simp [forN]
  | succ n ih =>
    simp only [forN, wr]
    rw [ih]
    by_cases e : i = n
    · subst e
      rw [if_pos (Nat.lt_succ_self i), if_neg (Nat.lt_irrefl i)]
      by_cases h0 : q = 0
      · subst h0
        rw [if_neg (by omega), if_neg (by omega), if_pos (by omega), if_pos rfl]
      · rw [if_neg h0]
        by_cases h4 : q = 4
        · subst h4
          rw [if_neg (by omega), if_pos (by omega), if_pos rfl]
        · rw [if_neg h4]
          by_cases h8 : q = 8
          · subst h8
            rw [if_pos (by omega), if_pos rfl]
          · rw [if_neg (by omega), if_neg (by omega), if_neg (by omega), if_neg h8]
    · rw [if_neg (by omega), if_neg (by omega), if_neg (by omega)]
      by_cases h : i < n
      · rw [if_pos h, if_pos (show i < n + 1 by omega)]
      · rw [if_neg h, if_neg (show ¬ i < n + 1 by omega)]

theorem loop2 (n : Nat) (tx ty t : Nat → ℝ) (i q : Nat) (hq : q < 4) :
    forN n (fun i t => wr (wr t (2*2*i) (tx i)) (2*2*i + 3) (ty i)) t (4*i + q)
      = if i < n then (if q = 0 then tx i else if q = 3 then ty i else t (4*i + q))
        else t (4*i + q) := by
  induction n with
  | zero => simp [forN]
  | succ n ih =>
    simp only [forN, wr]
    rw [ih]
    by_cases e : i = n
    · subst e
      rw [if_pos (Nat.lt_succ_self i), if_neg (Nat.lt_irrefl i)]
      by_cases h0 : q = 0
      · subst h0
        rw [if_neg (by omega), if_pos (by omega), if_pos rfl]
      · rw [if_neg h0]
        by_cases h3 : q = 3
        · subst h3
          rw [if_pos (by omega), if_pos rfl]
        · rw [if_neg (by omega), if_neg (by omega), if_neg h3]
    · rw [if_neg (by omega), if_neg (by omega)]
      by_cases h : i < n
      · rw [if_pos h, if_pos (show i < n + 1 by omega)]
      · rw [if_neg h, if_neg (show ¬ i < n + 1 by omega)]

/-- The value of direction `r` at cell `i`. -/
def along (tx ty tz : Nat → ℝ) (r i : Nat) : ℝ := if r = 0 then tx i else if r = 1 then ty i else tz i

/-- Every entry of the tensors: the diagonal from the files, the rest what the clearing left. -/
theorem C71_entries (cut : ℝ → ℝ) (dim n : Nat) (hd : dim = 2 ∨ dim = 3) (tx ty tz t : Nat → ℝ) (i : Nat)
    (hi : i < n) (r c : Nat) (hr : r < dim) (hc : c < dim) :
    tensorAt dim (assignDiagonal cut dim n tx ty tz t) i r c
      = if r = c then along tx ty tz r i else tensorAt dim (memset0 cut (4*n) t) i r c := by
  unfold tensorAt assignDiagonal along
  rcases hd with rfl | rfl
  · simp only [if_true]
    rw [show 2*2*i + r*2 + c = 4*i + (r*2 + c) by omega, loop2 n tx ty _ i _ (by omega), if_pos hi]
    interval_cases r <;> interval_cases c <;> simp
  · simp only [show (3 : Nat) ≠ 2 by decide, if_false]
    rw [show 3*3*i + r*3 + c = 9*i + (r*3 + c) by omega, loop3 n tx ty tz _ i _ (by omega), if_pos hi]
    interval_cases r <;> interval_cases c <;> simp

/-- What of the old contents is cleared: of the first `n / 2` entries of the whole array everything, of the
next one half if `n` is odd, of all others nothing. -/
theorem C71_what_is_cleared (cut : ℝ → ℝ) (dim n : Nat) (hd : dim = 2 ∨ dim = 3) (tx ty tz t : Nat → ℝ)
    (i : Nat) (hi : i < n) (r c : Nat) (hr : r < dim) (hc : c < dim) (hrc : r ≠ c) :
    (2*(dim*dim*i + r*dim + c) + 2 ≤ n →
      tensorAt dim (assignDiagonal cut dim n tx ty tz t) i r c = 0) ∧
    (2*(dim*dim*i + r*dim + c) + 1 = n →
      tensorAt dim (assignDiagonal cut dim n tx ty tz t) i r c = cut (t (dim*dim*i + r*dim + c))) ∧
    (n ≤ 2*(dim*dim*i + r*dim + c) →
      tensorAt dim (assignDiagonal cut dim n tx ty tz t) i r c = t (dim*dim*i + r*dim + c)) := by
  rw [C71_entries cut dim n hd tx ty tz t i hi r c hr hc, if_neg hrc]
  unfold tensorAt memset0
  generalize dim*dim*i + r*dim + c = k
  refine ⟨fun h => ?_, fun h => ?_, fun h => ?_⟩
  · rw [if_pos (by omega)]
  · rw [if_neg (by omega), if_pos (by omega)]
  · rw [if_neg (by omega), if_neg (by omega)]

/-- Into a zeroed buffer, as all discretizations allocate it, each cell gets its own diagonal tensor.  What is
missing from the full property: a buffer that is not zero (`C71_violated`). -/
theorem C71_diagonal_partial (cut : ℝ → ℝ) (hcut : cut 0 = 0) (dim n : Nat) (hd : dim = 2 ∨ dim = 3)
    (tx ty tz t : Nat → ℝ) (ht : ∀ k, t k = 0) (i : Nat) (hi : i < n) (r c : Nat) (hr : r < dim) (hc : c < dim) :
    tensorAt dim (assignDiagonal cut dim n tx ty tz t) i r c
      = if r = c then along tx ty tz r i else 0 := by
  rw [C71_entries cut dim n hd tx ty tz t i hi r c hr hc]
  congr 1
  unfold tensorAt memset0
  simp [ht, hcut]

/-- Evaluating again into the same buffer, with other values, gives the new tensors: the off-diagonal entries
stay zero. -/
theorem C71_again (cut : ℝ → ℝ) (hcut : cut 0 = 0) (dim n : Nat) (hd : dim = 2 ∨ dim = 3)
    (tx ty tz tx' ty' tz' t : Nat → ℝ) (ht : ∀ k, t k = 0) (i : Nat) (hi : i < n) (r c : Nat) (hr : r < dim)
    (hc : c < dim) :
    tensorAt dim (assignDiagonal cut dim n tx' ty' tz' (assignDiagonal cut dim n tx ty tz t)) i r c
      = if r = c then along tx' ty' tz' r i else 0 := by
  rw [C71_entries cut dim n hd _ _ _ _ i hi r c hr hc]
  by_cases e : r = c
  · rw [if_pos e, if_pos e]
  · rw [if_neg e, if_neg e]
    have h := C71_diagonal_partial cut hcut dim n hd tx ty tz t ht i hi r c hr hc
    rw [if_neg e] at h
    unfold tensorAt memset0 at *
    rw [h]
    simp [hcut]

/-- The clearing covers 4 bytes per cell instead of 8·dim² : for every number of cells and both dimensions there are
buffer contents of which an off-diagonal entry survives in the tensor of the last cell. -/
theorem C71_violated (cut : ℝ → ℝ) (dim n : Nat) (hd : dim = 2 ∨ dim = 3) (hn : 0 < n) (tx ty tz : Nat → ℝ) :
    ∃ t : Nat → ℝ, tensorAt dim (assignDiagonal cut dim n tx ty tz t) (n - 1) 0 1 = 1 := by
  refine ⟨fun _ => 1, ?_⟩
  rw [C71_entries cut dim n hd tx ty tz _ (n - 1) (by omega) 0 1 (by rcases hd with rfl | rfl <;> omega)
    (by rcases hd with rfl | rfl <;> omega), if_neg (by decide)]
  unfold tensorAt memset0
  rcases hd with rfl | rfl
  · rw [if_neg (by omega), if_neg (by omega)]
  · rw [if_neg (by omega), if_neg (by omega)]

/-- Non-vacuity: two cells in three dimensions. -/
example : tensorAt 3 (assignDiagonal (fun x => x) 3 2 (fun i => i) (fun _ => 5) (fun _ => 6) (fun _ => 0)) 1 1 1
    = 5 := by
  rw [C71_diagonal_partial (fun x => x) rfl 3 2 (Or.inr rfl) _ _ _ _ (fun _ => rfl) 1 (by decide) 1 1 (by decide)
    (by decide)]
  simp [along]

/-! ## C108: values in files reach their cell -/

/-- With one unknown per cell, after reading anisotropic permeability the tensor of each local cell, owned or
ghost, is the diagonal of the file values at the natural number of that cell. -/
theorem C108_permeability_partial (L : Layout) (h1 : L.ndof = 1) (cut : ℝ → ℝ) (hcut : cut 0 = 0) (dim : Nat)
    (hd : dim = 2 ∨ dim = 3) (g0 l0 : Nat → ℝ) (fx fy fz : Dataset) (hx : fx.len = L.n) (hy : fy.len = L.n)
    (hz : fz.len = L.n) :
    ∃ t, permeability L cut dim true g0 l0 fx fy fz (fun _ => 0) = .ok t ∧
      ∀ l c, IsCell L l c → ∀ r < dim, ∀ s < dim,
        tensorAt dim t l r s = if r = s then along fx.val fy.val fz.val r c else 0 := by
  obtain ⟨kx, ex, sx, vx⟩ := C72_fits L g0 l0 fx (by rw [h1, Nat.mul_one]; exact hx)
  obtain ⟨ky, ey, sy, vy⟩ := C72_fits L g0 l0 fy (by rw [h1, Nat.mul_one]; exact hy)
  obtain ⟨kz, ez, sz, vz⟩ := C72_fits L g0 l0 fz (by rw [h1, Nat.mul_one]; exact hz)
  refine ⟨assignDiagonal cut dim L.ng kx.val ky.val kz.val (fun _ => 0), ?_, ?_⟩
  · unfold permeability
    rw [if_pos rfl, ex, ey, ez]
    simp only []
    rw [if_pos (by rw [sx, h1]; omega)]
  · intro l c hc r hr s hs
    rw [C71_diagonal_partial cut hcut dim L.ng hd _ _ _ _ (fun _ => rfl) l hc.1 r s hr hs]
    have hl : l < L.ng*L.ndof := by rw [h1, Nat.mul_one]; exact hc.1
    have key : ∀ f : Dataset, naturalToLocal L f.val g0 l0 l = f.val c := fun f => by
      have := naturalToLocal_apply L f.val g0 l0 l c hc 0 (by omega)
      rwa [h1, Nat.mul_one, Nat.mul_one, Nat.add_zero, Nat.add_zero] at this
    unfold along
    rw [vx l hl, vy l hl, vz l hl, key, key, key]

/-- The same for a porosity file. -/
theorem C108_porosity_partial (L : Layout) (h1 : L.ndof = 1) (g0 l0 out : Nat → ℝ) (f : Dataset)
    (hf : f.len = L.n) :
    ∃ t, porosity L g0 l0 f out = .ok t ∧ ∀ l c, IsCell L l c → t l = f.val c := by
  obtain ⟨b, e, s, v⟩ := C72_fits L g0 l0 f (by rw [h1, Nat.mul_one]; exact hf)
  refine ⟨assignScalars L.ng b.val out, ?_, ?_⟩
  · unfold porosity
    rw [e]
    simp only []
    rw [if_pos (by rw [s, h1]; omega)]
  · intro l c hc
    unfold assignScalars
    rw [forN_fill, if_pos hc.1, v l (by rw [h1, Nat.mul_one]; exact hc.1)]
    have := naturalToLocal_apply L f.val g0 l0 l c hc 0 (by omega)
    rwa [h1, Nat.mul_one, Nat.mul_one, Nat.add_zero, Nat.add_zero] at this

/-- With two unknowns per cell (TH and salinity) a file with one value per cell is refused for permeability, and for
porosity, where the code of the failed read is dropped, the outcome is undefined. -/
theorem C108_violated (L : Layout) (h2 : L.ndof = 2) (hn : 0 < L.n) (cut : ℝ → ℝ) (dim : Nat) (g0 l0 t : Nat → ℝ)
    (f : Dataset) (hf : f.len = L.n) :
    permeability L cut dim true g0 l0 f f f t = .err t ∧ porosity L g0 l0 f t = .ub := by
  have e : readVariable L g0 l0 f = .err (alloc 0) := by
    unfold readVariable; rw [if_neg (by rw [h2]; omega)]
  constructor
  · unfold permeability
    rw [if_pos rfl, e]
  · unfold porosity
    rw [e]

/-- A file with two values per cell is accepted then, but local cell 1 gets the second value of local cell 0. -/
theorem C108_interleaved (L : Layout) (h2 : L.ndof = 2) (g0 l0 out : Nat → ℝ) (f : Dataset)
    (hf : f.len = 2*L.n) (hng : 2 ≤ L.ng) (c : Nat) (hc : IsCell L 0 c) :
    ∃ t, porosity L g0 l0 f out = .ok t ∧ t 1 = f.val (2*c + 1) := by
  obtain ⟨b, e, s, v⟩ := C72_fits L g0 l0 f (by rw [h2, Nat.mul_comm]; exact hf)
  refine ⟨assignScalars L.ng b.val out, ?_, ?_⟩
  · unfold porosity
    rw [e]
    simp only []
    rw [if_pos (by rw [s, h2]; omega)]
  · unfold assignScalars
    rw [forN_fill, if_pos (by omega), v 1 (by rw [h2]; omega)]
    have := naturalToLocal_apply L f.val g0 l0 0 c hc 1 (by omega)
    rwa [h2, show 0*2 + 1 = 1 by rfl, Nat.mul_comm c 2] at this

/-- Non-vacuity: the layouts of the example, where local cell 0 is natural cell 1. -/
example (g0 l0 out : Nat → ℝ) : ∃ t, porosity (layout 1) g0 l0 ⟨3, fun k => (k : ℝ)⟩ out = .ok t ∧ t 0 = 1 ∧ t 1 = 2 := by
  obtain ⟨t, h, k⟩ := C108_porosity_partial (layout 1) rfl g0 l0 out ⟨3, fun k => (k : ℝ)⟩ rfl
  exact ⟨t, h, by rw [k 0 1 (layout_cells 1).1]; norm_num, by rw [k 1 2 (layout_cells 1).2]; norm_num⟩

example (g0 l0 out : Nat → ℝ) : ∃ t, porosity (layout 2) g0 l0 ⟨6, fun k => (k : ℝ)⟩ out = .ok t ∧ t 1 = 3 := by
  obtain ⟨t, h, k⟩ := C108_interleaved (layout 2) rfl g0 l0 out ⟨6, fun k => (k : ℝ)⟩ rfl (by decide) 1
    (layout_cells 2).1
  exact ⟨t, h, by rw [k]; norm_num⟩

/-! ## C109: isotropic permeability files -/

/-- Without -anisotropic_perm all cells get one and the same tensor, whose diagonal are the file values of the local
cells 0, 1 and 2. -/
theorem C109_constant (L : Layout) (h1 : L.ndof = 1) (cut : ℝ → ℝ) (dim : Nat) (hd : dim ≤ 3)
    (g0 l0 : Nat → ℝ) (f fy fz : Dataset) (hf : f.len = L.n) (hng : 3 ≤ L.ng)
    (c : Nat → Nat) (hc : ∀ l < 3, IsCell L l (c l)) :
    ∃ t, permeability L cut dim false g0 l0 f fy fz (fun _ => 0) = .ok t ∧
      ∀ l < L.ng, ∀ r < dim, ∀ s < dim, tensorAt dim t l r s = if r = s then f.val (c r) else 0 := by
  obtain ⟨k, e, sz, v⟩ := C72_fits L g0 l0 f (by rw [h1, Nat.mul_one]; exact hf)
  refine ⟨Slots.constantDiagonal dim k.val L.ng (fun _ => 0), ?_, ?_⟩
  · unfold permeability
    rw [if_neg (by decide), e]
    simp only []
    rw [if_pos (by rw [sz, h1]; omega)]
  · intro l hl r hr s hs
    rw [Slots.Props.C11_constant_diagonal dim L.ng _ _ l r s hr hs]
    by_cases e' : r = s
    · rw [if_pos ⟨hl, e'⟩, if_pos e', v r (by rw [h1]; omega)]
      have := naturalToLocal_apply L f.val g0 l0 r (c r) (hc r (by omega)) 0 (by omega)
      rwa [h1, Nat.mul_one, Nat.mul_one, Nat.add_zero, Nat.add_zero] at this
    · rw [if_neg (fun h => e' h.2), if_neg e']
      rfl

/-- So a file that gives the cells different values does not give each cell its value: cell 3 has that of cell 0. -/
theorem C109_violated (L : Layout) (h1 : L.ndof = 1) (cut : ℝ → ℝ)
    (g0 l0 : Nat → ℝ) (f fy fz : Dataset) (hf : f.len = L.n) (hng : 4 ≤ L.ng)
    (c : Nat → Nat) (hc : ∀ l < L.ng, IsCell L l (c l)) (hne : f.val (c 3) ≠ f.val (c 0)) :
    ∃ t, permeability L cut 3 false g0 l0 f fy fz (fun _ => 0) = .ok t ∧ tensorAt 3 t 3 0 0 ≠ f.val (c 3) := by
  obtain ⟨t, h, k⟩ := C109_constant L h1 cut 3 (Nat.le_refl _) g0 l0 f fy fz hf (by omega) c
    (fun l hl => hc l (by omega))
  refine ⟨t, h, ?_⟩
  rw [k 3 (by omega) 0 (by decide) 0 (by decide), if_pos rfl]
  exact fun e => hne e.symm

/-- With fewer than three local cells the three values are read beyond the end of the buffer. -/
theorem C109_few_cells_undefined (L : Layout) (h1 : L.ndof = 1) (cut : ℝ → ℝ) (dim : Nat) (g0 l0 t : Nat → ℝ)
    (f fy fz : Dataset) (hf : f.len = L.n) (hng : L.ng < 3) :
    permeability L cut dim false g0 l0 f fy fz t = .ub := by
  obtain ⟨k, e, sz, -⟩ := C72_fits L g0 l0 f (by rw [h1, Nat.mul_one]; exact hf)
  unfold permeability
  rw [if_neg (by decide), e]
  simp only []
  rw [if_neg (by rw [sz, h1]; omega)]

/-- Non-vacuity: four cells on one rank. -/
example : ∃ (L : Layout) (f : Dataset), L.ndof = 1 ∧ f.len = L.n ∧ 4 ≤ L.ng ∧ (∀ l < L.ng, IsCell L l l)
    ∧ f.val 3 ≠ f.val 0 :=
  ⟨⟨4, 1, fun p => p, 4, fun l => l⟩, ⟨4, fun k => (k : ℝ)⟩, rfl, rfl, Nat.le_refl _,
    fun l hl => ⟨hl, by simp, by simpa using hl, by simp⟩, by norm_num⟩

/-! ## C110: restarting from a checkpoint -/

/-- A run restarted from a checkpoint file, with any other distribution of the cells over ranks, starts from the
solution that was saved: for every cell (natural number `c`) and unknown `j` the two solution vectors hold what the
saving run held, and so does the local vector of each rank. -/
theorem C110_solution (A B : Layout) (hn : A.n = B.n) (hd : A.ndof = B.ndof) (placeA placeB : Nat → Nat)
    (hA : Numbering A.n placeA A.cell) (hB : Numbering B.n placeB B.cell) (label : ℝ → Label) (time : ℝ) (step : Nat)
    (prev n0 g0 : Nat → ℝ) (fs : Files) (s : Start) :
    ∃ saved s', outputCheckpoint A label time step prev n0 fs (label time) = some saved ∧
      readIC B saved.ic g0 s = .ok s' ∧
      (∀ c < B.n, ∀ j < B.ndof,
        s'.soln (placeB c*B.ndof + j) = prev (placeA c*A.ndof + j)
          ∧ s'.prev (placeB c*B.ndof + j) = prev (placeA c*A.ndof + j))
      ∧ ∀ l c, IsCell B l c → ∀ j < B.ndof, s'.loc (l*B.ndof + j) = prev (placeA c*A.ndof + j) := by
  have key : ∀ c < B.n, ∀ j < B.ndof,
      globalToNatural A.n A.ndof A.cell prev n0 (c*B.ndof + j) = prev (placeA c*A.ndof + j) := by
    intro c hc j hj
    rw [← hd]
    exact C70_natural_position A.n A.ndof placeA A.cell hA prev n0 c (by omega) j (by omega)
  refine ⟨⟨⟨A.n*A.ndof, globalToNatural A.n A.ndof A.cell prev n0⟩, step⟩, { s with
      soln := naturalToGlobal B.n B.ndof B.cell (globalToNatural A.n A.ndof A.cell prev n0) s.soln
      prev := naturalToGlobal B.n B.ndof B.cell (globalToNatural A.n A.ndof A.cell prev n0) s.prev
      loc := naturalToLocal B (globalToNatural A.n A.ndof A.cell prev n0) g0 s.loc },
    by unfold outputCheckpoint; rw [if_pos rfl], by unfold readIC; rw [if_pos (by rw [hn, hd])], ?_, ?_⟩
  · intro c hc j hj
    simp only []
    constructor <;>
    · rw [naturalToGlobal_apply _ _ _ _ _ _ (hB.placeLt c hc) _ hj, hB.cellPlace c hc]
      exact key c hc j hj
  · intro l c hc j hj
    simp only []
    rw [naturalToLocal_apply B _ g0 s.loc l c hc j hj]
    have : c < B.n := by rw [← hc.2.2.2]; exact hB.cellLt _ hc.2.2.1
    exact key c this j hj

/-- But the clock is not: whatever time and step the checkpoint was written at, the restarted run is where its time
integrator was created. -/
theorem C110_clock_not_restored (A B : Layout) (label : ℝ → Label) (time : ℝ) (step : Nat) (prev n0 g0 : Nat → ℝ)
    (fs : Files) (s s' : Start) (saved : Saved)
    (_h1 : outputCheckpoint A label time step prev n0 fs (label time) = some saved)
    (h2 : readIC B saved.ic g0 s = .ok s') : s'.time = s.time ∧ s'.step = s.step := by
  unfold readIC at h2
  split at h2
  · cases h2; exact ⟨rfl, rfl⟩
  · cases h2

/-- Non-vacuity: a saving run with reversed cells, a restarted one in file order. -/
example : Numbering 3 (fun c => 2 - c) (layout 2).cell ∧ Numbering 3 (fun c => c) (fun p => p) :=
  ⟨⟨fun c hc => by omega, fun p hp => by simp only [layout]; omega, fun c hc => by simp only [layout]; omega,
    fun p hp => by simp only [layout]; omega⟩, ⟨fun c hc => hc, fun p hp => hp, fun c _ => rfl, fun p _ => rfl⟩⟩

/-! ## C111: each checkpoint has its own file -/

/-- A checkpoint does not touch the files with other labels. -/
theorem C111_other_labels_partial (L : Layout) (label : ℝ → Label) (time time' : ℝ) (step : Nat) (prev n0 : Nat → ℝ)
    (fs : Files) (h : label time' ≠ label time) :
    outputCheckpoint L label time step prev n0 fs (label time') = fs (label time') := by
  unfold outputCheckpoint; rw [if_neg h]

/-- Labels are unique: six significant digits decide. -/
theorem label_million (t : ℝ) (h1 : (10 : ℝ)^6 ≤ t) (h2 : t ≤ 10^6 + 4) (l : Label) (hl : IsLabel t l) :
    l = (10^5, 6) := by
  obtain ⟨m, e⟩ := l
  obtain ⟨hm1, hm2, habs⟩ := hl
  simp only [] at hm1 hm2 habs
  rw [abs_le] at habs
  have hm1' : (10 : ℝ)^5 ≤ m := by exact_mod_cast hm1
  have hm2' : (m : ℝ) + 1 ≤ 10^6 := by exact_mod_cast hm2
  have hp : (0 : ℝ) < (10 : ℝ)^(e - 5) := zpow_pos (by norm_num) _
  rcases lt_trichotomy e 6 with h | h | h
  · exfalso
    have : (10 : ℝ)^(e - 5) ≤ (10 : ℝ)^(0 : ℤ) := zpow_le_zpow_right₀ (by norm_num) (by omega)
    rw [zpow_zero] at this
    have hb : (m : ℝ)*(10 : ℝ)^(e - 5) ≤ (10^6 - 1)*(10 : ℝ)^(e - 5) :=
      mul_le_mul_of_nonneg_right (by linarith) hp.le
    nlinarith
  · subst h
    norm_num at habs
    have e1 : (m : ℝ) < 100001 := by nlinarith
    have e2 : m < 100001 := by exact_mod_cast e1
    rw [Prod.mk.injEq]
    exact ⟨by omega, rfl⟩
  · exfalso
    have : (10 : ℝ)^(2 : ℤ) ≤ (10 : ℝ)^(e - 5) := zpow_le_zpow_right₀ (by norm_num) (by omega)
    norm_num at this
    have hb : (10^5 : ℝ)*(10 : ℝ)^(e - 5) ≤ (m : ℝ)*(10 : ℝ)^(e - 5) :=
      mul_le_mul_of_nonneg_right hm1' hp.le
    nlinarith

/-- Two steps one second apart, a million seconds into a run, have the same label: the second checkpoint replaces
the first.  For every way to print times that is right to six digits. -/
theorem C111_violated (L : Layout) (label : ℝ → Label) (hl : ∀ t > 0, IsLabel t (label t)) (step : Nat)
    (prev prev' n0 : Nat → ℝ) (fs : Files) :
    outputCheckpoint L label (10^6 + 1) (step + 1) prev' n0 (outputCheckpoint L label (10^6) step prev n0 fs)
        (label (10^6))
      = some ⟨⟨L.n*L.ndof, globalToNatural L.n L.ndof L.cell prev' n0⟩, step + 1⟩ := by
  have e : label (10^6) = label (10^6 + 1) := by
    rw [label_million (10^6) (le_refl _) (by norm_num) _ (hl _ (by norm_num)),
      label_million (10^6 + 1) (by norm_num) (by norm_num) _ (hl _ (by norm_num))]
  rw [e]
  unfold outputCheckpoint
  rw [if_pos rfl]

/-- Non-vacuity: the time 1 has the label 1.00000e+00. -/
example : IsLabel 1 (10^5, 0) := by
  refine ⟨le_refl _, by norm_num, ?_⟩
  simp only []
  norm_num

/-! ## C112: the visualisation header -/

/-- For meshes of tetrahedra, wedges or hexahedra with one unknown per cell the header describes the mesh. -/
theorem C112_header_partial (m : DMesh) (hd : m.dim = 3) (hc : m.corners = 4 ∨ m.corners = 6 ∨ m.corners = 8) :
    ∃ h, xmfHeader m 1 = some h ∧ TopologyName m.dim m.corners h.topology ∧ h.cells = m.height 0
      ∧ h.verts = m.height m.dim ∧ h.dim = m.dim ∧ h.corners = m.corners := by
  unfold xmfHeader cellMap TopologyName
  rw [hd]
  rcases hc with e | e | e <;> rw [e] <;> simp

/-- A mesh of pyramids has no entry in the table: a null pointer is printed. -/
theorem C112_pyramid_violated (m : DMesh) (hd : m.dim = 3) (hc : m.corners = 5) (ndof : Nat) :
    xmfHeader m ndof = none := by
  unfold xmfHeader cellMap
  rw [hd, hc]
  simp

/-- With two unknowns per cell the header says twice the number of cells. -/
theorem C112_cells_violated (m : DMesh) (h : Header) (he : xmfHeader m 2 = some h) : h.cells = 2*m.height 0 := by
  unfold xmfHeader at he
  split at he
  · rw [Option.map_eq_some_iff] at he
    obtain ⟨t, -, e⟩ := he
    rw [← e, Nat.mul_comm]
  · simp at he

/-- In two dimensions it says the number of points of height 3, of which there are none. -/
theorem C112_plane_violated (m : DMesh) (h0 : m.height 3 = 0) (ndof : Nat) (h : Header)
    (he : xmfHeader m ndof = some h) : h.verts = 0 := by
  unfold xmfHeader at he
  split at he
  · rw [Option.map_eq_some_iff] at he
    obtain ⟨t, -, e⟩ := he
    rw [← e, ← h0]
  · simp at he

/-- Non-vacuity: a plane mesh of two triangles (four vertices, five edges). -/
example : ∃ h, xmfHeader ⟨2, 3, fun k => if k = 0 then 2 else if k = 1 then 5 else if k = 2 then 4 else 0⟩ 1 = some h
    ∧ h.topology = "Triangle" ∧ h.verts = 0 := by
  simp [xmfHeader, cellMap]

/-! ## C73: regression samples -/

theorem sample_pos (num dof inc off c d : Nat) (hc : c < num) (hd : d < dof) :
    forN num (fun c a => forN dof (fun d a => wr a (dof*c + d) (dof*c*inc + off + d)) a) (fun _ => 0) (dof*c + d)
      = dof*c*inc + off + d := by
  have h := (blocks_apply num dof (fun i => i) (fun c d => dof*c*inc + off + d) (fun _ _ _ _ e => e)
    (fun _ => 0)).1 c hc d hd
  simp only [Nat.mul_comm dof] at h ⊢
  exact h

/-- The samples of a rank are the entries of `num` different local cells: sample `c` component `d` lies in the range of
the rank, at component `d` of a cell, and no two coincide. -/
def Good (s : Sample) (vec off : Nat) : Prop :=
  (∀ c < s.num, ∀ d < s.dof, off ≤ s.pos (s.dof*c + d) ∧ s.pos (s.dof*c + d) < off + vec
    ∧ (s.pos (s.dof*c + d) - off) % s.dof = d)
  ∧ ∀ c < s.num, ∀ d < s.dof, ∀ c' < s.num, ∀ d' < s.dof,
      s.pos (s.dof*c + d) = s.pos (s.dof*c' + d') → c = c' ∧ d = d'

theorem good_of (num dof inc off vec : Nat) (hd : 0 < dof) (hi : 0 < inc) (hfit : num*(dof*inc) ≤ vec) :
    Good ⟨num, dof, forN num (fun c a => forN dof (fun d a =>
      wr a (dof*c + d) (dof*c*inc + off + d)) a) (fun _ => 0)⟩ vec off := by
  have hcell : ∀ c d, dof*c*inc + off + d = off + (dof*(c*inc) + d) := fun c d => by
    rw [Nat.mul_assoc]; omega
  constructor
  · intro c hc d hd'
    simp only [] at hc hd' ⊢
    rw [sample_pos _ _ _ _ _ _ hc hd', hcell]
    refine ⟨by omega, ?_, ?_⟩
    · have h1 : (c + 1)*(dof*inc) ≤ num*(dof*inc) := Nat.mul_le_mul_right _ hc
      have h2 : dof*(c*inc) + dof*inc = (c + 1)*(dof*inc) := by ring
      have h3 : dof ≤ dof*inc := Nat.le_mul_of_pos_right _ hi
      omega
    · rw [Nat.add_sub_cancel_left, Nat.mul_add_mod, Nat.mod_eq_of_lt hd']
  · intro c hc d hd' c' hc' d' hd'' he
    simp only [] at hc hd' hc' hd'' he
    rw [sample_pos _ _ _ _ _ _ hc hd', sample_pos _ _ _ _ _ _ hc' hd'', hcell, hcell] at he
    have he' : dof*(c*inc) + d = dof*(c'*inc) + d' := by omega
    have e1 : d = d' := by
      have := congrArg (· % dof) he'
      simpa [Nat.mul_add_mod, Nat.mod_eq_of_lt hd', Nat.mod_eq_of_lt hd''] using this
    subst e1
    have e2 : dof*(c*inc) = dof*(c'*inc) := by omega
    have e3 := Nat.eq_of_mul_eq_mul_left hd e2
    exact ⟨Nat.eq_of_mul_eq_mul_right hi e3, rfl⟩

/-- In the modes with one sampled value per cell: for every requested number and every distribution with something on
each rank, the samples lie in the vector and are distinct. -/
theorem C73_richards (req minVec vec off : Nat) (hreq : 0 < req) (hmin : 0 < minVec) (hle : minVec ≤ vec) :
    ∃ s, regression false req minVec vec off = some s ∧ 0 < s.num ∧ s.num ≤ req ∧ Good s vec off := by
  unfold regression
  simp only [Bool.false_eq_true, if_false]
  set num := if minVec < req then minVec else req with hnum
  have h0 : num ≠ 0 := by rw [hnum]; split <;> omega
  have h1 : num ≤ vec := by rw [hnum]; split <;> omega
  have h2 : num ≤ req := by rw [hnum]; split <;> omega
  rw [if_neg h0]
  refine ⟨_, rfl, by simp only []; omega, by simpa using h2, ?_⟩
  have hi : 0 < vec/num := Nat.div_pos h1 (by omega)
  exact good_of num 1 (vec/num) off vec (by decide) hi (by rw [Nat.one_mul]; exact Nat.mul_div_le vec num)

/-- In TH mode the same as long as no more cells are requested than the smallest rank has.  What is missing: larger
requests (`C73_violated`). -/
theorem C73_th_partial (req minCells cells off : Nat) (hreq : 0 < req) (hmin : req ≤ minCells)
    (hle : minCells ≤ cells) :
    ∃ s, regression true req (2*minCells) (2*cells) off = some s ∧ s.num = req ∧ Good s (2*cells) off := by
  unfold regression
  simp only [if_true]
  rw [if_neg (show ¬ 2*minCells < req by omega), if_neg (show ¬ req = 0 by omega)]
  refine ⟨_, rfl, rfl, ?_⟩
  have e : 2*cells/req/2 = cells/req := by
    rw [Nat.div_div_eq_div_mul, Nat.mul_comm req 2, Nat.mul_div_mul_left _ _ (by decide)]
  rw [e]
  have hi : 0 < cells/req := Nat.div_pos (by omega) hreq
  refine good_of req 2 (cells/req) off (2*cells) (by decide) hi ?_
  have := Nat.mul_div_le cells req
  calc req*(2*(cells/req)) = 2*(req*(cells/req)) := by ring
    _ ≤ 2*cells := Nat.mul_le_mul_left _ this

/-- In TH mode the clamp compares the number of cells with the number of unknowns: with the default request of two and
one cell on a rank both samples are the same cell. -/
theorem C73_violated (off : Nat) :
    ∃ s, regression true 2 2 2 off = some s ∧ s.num = 2 ∧ s.pos 0 = s.pos 2 := by
  refine ⟨_, rfl, rfl, ?_⟩
  simp [forN, wr]

/-- A rank without cells, or a request of zero, divides by zero. -/
theorem C73_empty_rank_undefined (th : Bool) (req vec off : Nat) :
    regression th req 0 vec off = none ∧ regression th 0 vec vec off = none := by
  constructor
  · unfold regression
    simp only []
    rw [if_pos]
    split <;> omega
  · unfold regression
    simp only []
    rw [if_pos]
    split <;> omega

/-- In the salinity mode, which is treated as having one unknown per cell, half of the values reported as pressures can
be concentrations: with two cells and the largest request, entry 1 is the second unknown of cell 0. -/
theorem C73_salinity_violated (off : Nat) :
    ∃ s, regression false 4 4 4 off = some s ∧ s.pos 1 = off + 1 := by
  refine ⟨_, rfl, ?_⟩
  simp [forN, wr]
  omega

/-- Non-vacuity: ten cells of which three are requested; the third is cell 6. -/
example : ∃ s, regression false 3 10 10 20 = some s ∧ Good s 10 20 ∧ s.pos 2 = 26 := by
  obtain ⟨s, h, -, -, g⟩ := C73_richards 3 10 10 20 (by decide) (by decide) (le_refl _)
  refine ⟨s, h, g, ?_⟩
  have : regression false 3 10 10 20 = some s := h
  simp only [regression] at this
  simp [forN] at this
  rw [← this]
  rfl

end

end TDy.Io.Props
