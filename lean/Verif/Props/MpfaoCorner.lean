import Verif.Spec.MpfaoCorner
import Verif.Props.MpfaoFlux

/-!
# C51, C52: corner vertices and connected regions
-/

namespace TDy.Mpfao.Props

open TDy.Mpfao TDy.Mpfao.Spec TDy.Mpfao.Proofs Finset
open TDy.Fvtpf (Side Bc)

noncomputable section

/-! ## C51 -/

theorem lit_zero : (0.0:ℝ) = 0 := by norm_num

theorem cornerGather_eq {c : Corner} {σ} (ok : CornerOk c σ) :
    (cornerGather c).1 = 3 ∧ ∀ j < 3, (cornerGather c).2 j = c.fbnd (c.face j) := by
  have h0 := ok.boundary 0 (by norm_num)
  have h1 := ok.boundary 1 (by norm_num)
  have h2 := ok.boundary 2 (by norm_num)
  have e : cornerGather c = cornerGatherStep c 2 (cornerGatherStep c 1 (cornerGatherStep c 0
    (0, fun _ => 0))) := rfl
  rw [e]
  simp only [cornerGatherStep, h0, h1, h2, Bool.false_eq_true, if_false]
  refine ⟨trivial, ?_⟩
  intro j hj
  rcases j with _ | _ | _ | j
  · simp [wr]
  · simp [wr]
  · simp [wr]
  · omega

/-- C51, for the matrix the residual is computed with: the row saved for a face of a corner vertex,
times the pressures, is the flux through that face, whatever the order of the faces. -/
theorem C51_matrix {c : Corner} {σ} (ok : CornerOk c σ) (u : ℝ) (pb : Nat → ℝ) (i : Nat) :
    cornerRowTimes c u pb i = cornerFlux c u pb i := by
  obtain ⟨h1, h2⟩ := cornerGather_eq ok
  unfold cornerRowTimes cornerFlux
  rw [h1]
  simp only [sum_range_succ, sum_range_zero, h2 0 (by norm_num), h2 1 (by norm_num),
    h2 2 (by norm_num), cornerTrans0]
  norm_num
  ring

theorem rowOf_face {c : Corner} {σ} (ok : CornerOk c σ) (k : Nat) (hk : k < 3) :
    rowOf c (c.face k) = some k := by
  have d : ∀ a b, a < 3 → b < 3 → a ≠ b → c.face a ≠ c.face b :=
    fun a b ha hb hab e => hab (ok.face_inj a ha b hb e)
  rcases k with _ | _ | _ | k
  · simp [rowOf]
  · simp [rowOf, d 0 1 (by norm_num) (by norm_num) (by norm_num)]
  · simp [rowOf, d 0 2 (by norm_num) (by norm_num) (by norm_num),
      d 1 2 (by norm_num) (by norm_num) (by norm_num)]
  · omega

theorem perm3_onto {σ : Nat → Nat} (lt : ∀ i < 3, σ i < 3)
    (inj : ∀ i < 3, ∀ i' < 3, σ i = σ i' → i = i') (k : Nat) (hk : k < 3) : ∃ i < 3, σ i = k := by
  have a0 := lt 0 (by norm_num)
  have a1 := lt 1 (by norm_num)
  have a2 := lt 2 (by norm_num)
  have d01 : σ 0 ≠ σ 1 := fun e => absurd (inj 0 (by norm_num) 1 (by norm_num) e) (by norm_num)
  have d02 : σ 0 ≠ σ 2 := fun e => absurd (inj 0 (by norm_num) 2 (by norm_num) e) (by norm_num)
  have d12 : σ 1 ≠ σ 2 := fun e => absurd (inj 1 (by norm_num) 2 (by norm_num) e) (by norm_num)
  have : σ 0 = k ∨ σ 1 = k ∨ σ 2 = k := by omega
  rcases this with h | h | h
  · exact ⟨0, by norm_num, h⟩
  · exact ⟨1, by norm_num, h⟩
  · exact ⟨2, by norm_num, h⟩

theorem subBnd_eq {c : Corner} {σ} (ok : CornerOk c σ) (k : Nat) (hk : k < 3) :
    subBnd c k = some (c.fbnd (c.face k)) := by
  obtain ⟨i, hi, hs⟩ := perm3_onto ok.lt ok.inj 2 (by norm_num)
  have fill : ∀ (i : Nat) (a : Nat → Option Nat) (k : Nat), i < 3 →
      fillSub c (c.vface i) a k = if k < σ i + 1 then some (c.fbnd (c.face k)) else a k := by
    intro i a k hi
    unfold fillSub
    rw [ok.order i hi, rowOf_face ok (σ i) (ok.lt i hi)]
    exact forN_fill _ _ _ _
  have I := forN_invariant 3 (fun iface a => fillSub c (c.vface iface) a) (fun _ => none)
    (fun m a => i < m → a k = some (c.fbnd (c.face k))) (by intro h; omega)
    (by
      intro m a hm ih hlt
      rw [fill m a k hm]
      by_cases h : i = m
      · subst h; rw [if_pos (by omega)]
      · split
        · rfl
        · exact ih (by omega))
  exact I hi

theorem colOf_eq {c : Corner} {σ} (ok : CornerOk c σ) (j : Nat) (hj : j < 3) :
    colOf c j = some (σ j) := by
  have s0 := subBnd_eq ok 0 (by norm_num)
  have s1 := subBnd_eq ok 1 (by norm_num)
  have s2 := subBnd_eq ok 2 (by norm_num)
  have d : ∀ a b, a < 3 → b < 3 → a ≠ b → c.fbnd (c.face a) ≠ c.fbnd (c.face b) :=
    fun a b ha hb hab e => hab (ok.bnd_inj a ha b hb e)
  have hlt := ok.lt j hj
  unfold colOf
  rw [s0, s1, s2, ok.order j hj]
  generalize σ j = k at hlt
  rcases k with _ | _ | _ | k
  · simp
  · simp [d 0 1 (by norm_num) (by norm_num) (by norm_num)]
  · simp [d 0 2 (by norm_num) (by norm_num) (by norm_num),
      d 1 2 (by norm_num) (by norm_num) (by norm_num)]
  · omega

/-- What the reordering produces. -/
theorem cornerTrans_eq {c : Corner} {σ} (ok : CornerOk c σ) (junk : Nat → Nat → ℝ) :
    ∃ T, cornerTrans c junk = some T ∧ ∀ i < 3,
      T i 0 = c.G (σ i) 0 + c.G (σ i) 1 + c.G (σ i) 2 ∧
      ∀ j < 3, T i (σ j + 1) = -c.G (σ i) j := by
  have r : ∀ i, i < 3 → rowOf c (c.vface i) = some (σ i) := fun i hi => by
    rw [ok.order i hi]; exact rowOf_face ok _ (ok.lt i hi)
  unfold cornerTrans
  rw [r 0 (by norm_num), r 1 (by norm_num), r 2 (by norm_num), colOf_eq ok 0 (by norm_num),
    colOf_eq ok 1 (by norm_num), colOf_eq ok 2 (by norm_num)]
  refine ⟨_, rfl, ?_⟩
  intro i hi
  have hrow : (if i = 0 then σ 0 else if i = 1 then σ 1 else σ 2) = σ i := by
    rcases i with _ | _ | _ | i
    · rfl
    · rfl
    · rfl
    · omega
  refine ⟨?_, ?_⟩
  · simp only [if_true, cornerT2, cornerT1, hrow, lit_zero]
    norm_num
  · intro j hj
    have hlt := ok.lt j hj
    have h3 : σ j ≠ 3 := by omega
    have d : ∀ a b, a < 3 → b < 3 → a ≠ b → σ a ≠ σ b :=
      fun a b ha hb hab e => hab (ok.inj a ha b hb e)
    simp only [Nat.add_eq_zero_iff, one_ne_zero, and_false, if_false, Nat.add_sub_cancel, cornerT2,
      h3, forN]
    rcases j with _ | _ | _ | j
    · simp [cornerT1, hrow, hi, d 0 1 (by norm_num) (by norm_num) (by norm_num),
        d 0 2 (by norm_num) (by norm_num) (by norm_num)]
    · simp [cornerT1, hrow, hi, d 1 2 (by norm_num) (by norm_num) (by norm_num)]
    · simp [cornerT1, hrow, hi]
    · omega

/-- The column of the cell, the only one the Jacobian reads, is right for every order. -/
theorem C51_cell_column {c : Corner} {σ} (ok : CornerOk c σ) (junk : Nat → Nat → ℝ) :
    ∃ T, cornerTrans c junk = some T ∧ ∀ i < 3, ∀ u,
      T i 0*u = cornerFlux c u (fun _ => 0) (σ i) := by
  obtain ⟨T, hT, h⟩ := cornerTrans_eq ok junk
  refine ⟨T, hT, fun i hi u => ?_⟩
  rw [(h i hi).1]
  simp only [cornerFlux, sum_range_succ, sum_range_zero]
  ring

/-- C51: exactly when the saved transmissibilities are right.  The columns are permuted with the
inverse of the permutation they should be permuted with. -/
theorem C51_columns_iff {c : Corner} {σ} (ok : CornerOk c σ) (junk : Nat → Nat → ℝ) :
    ∃ T, cornerTrans c junk = some T ∧
      ((∀ i < 3, ∀ u pb, readRow c T u pb i = cornerFlux c u pb (σ i)) ↔
        ∀ i < 3, ∀ j < 3, c.G (σ i) (σ (σ j)) = c.G (σ i) j) := by
  obtain ⟨T, hT, h⟩ := cornerTrans_eq ok junk
  refine ⟨T, hT, ?_⟩
  have o : ∀ k < 3, c.fbnd (c.vface k) = c.fbnd (c.face (σ k)) := fun k hk => by rw [ok.order k hk]
  -- a sum over the faces of the vertex is a sum over the faces of the subcell
  have reindex : ∀ g : Nat → ℝ, ∑ k ∈ range 3, g (σ k) = ∑ k ∈ range 3, g k := by
    intro g
    refine sum_nbij σ (fun k hk => mem_range.2 (ok.lt k (mem_range.1 hk)))
      (fun a ha b hb e => ok.inj a (mem_range.1 ha) b (mem_range.1 hb) e)
      (fun k hk => ?_) (fun _ _ => rfl)
    obtain ⟨i, hi, e⟩ := perm3_onto ok.lt ok.inj k (mem_range.1 hk)
    exact ⟨i, mem_coe.2 (mem_range.2 hi), e⟩
  have flux : ∀ i < 3, ∀ u pb, cornerFlux c u pb (σ i) =
      T i 0*u + ∑ k ∈ range 3, -c.G (σ i) (σ k)*pb (c.fbnd (c.vface k)) := by
    intro i hi u pb
    rw [(h i hi).1]
    have e : ∑ k ∈ range 3, -c.G (σ i) (σ k)*pb (c.fbnd (c.vface k)) =
        ∑ k ∈ range 3, -c.G (σ i) k*pb (c.fbnd (c.face k)) := by
      rw [← reindex fun k => -c.G (σ i) k*pb (c.fbnd (c.face k))]
      exact sum_congr rfl fun k hk => by rw [o k (mem_range.1 hk)]
    rw [e]
    simp only [cornerFlux, sum_range_succ, sum_range_zero]
    ring
  constructor
  · intro hr i hi j hj
    -- the boundary pressure that is 1 on the face in question only
    have hm := ok.lt j hj
    have h1 := hr i hi 0 (fun b => if b = c.fbnd (c.vface (σ j)) then 1 else 0)
    rw [flux i hi] at h1
    unfold readRow at h1
    have pick : ∀ a : Nat → ℝ, (∑ k ∈ range 3, a k*
        (if c.fbnd (c.vface k) = c.fbnd (c.vface (σ j)) then (1:ℝ) else 0)) = a (σ j) := by
      intro a
      rw [sum_eq_single (σ j)]
      · rw [if_pos rfl, mul_one]
      · intro k hk hne
        rw [if_neg, mul_zero]
        intro e
        rw [o k (mem_range.1 hk), o (σ j) hm] at e
        exact hne (ok.inj k (mem_range.1 hk) (σ j) hm
          (ok.bnd_inj _ (ok.lt k (mem_range.1 hk)) _ (ok.lt _ hm) e))
      · intro hn; exact absurd (mem_range.2 hm) hn
    rw [pick fun k => T i (k + 1), pick fun k => -c.G (σ i) (σ k), (h i hi).2 j hj] at h1
    linarith
  · intro hG i hi u pb
    rw [flux i hi]
    unfold readRow
    congr 1
    refine sum_congr rfl fun k hk => ?_
    obtain ⟨j, hj, e⟩ := perm3_onto ok.lt ok.inj k (mem_range.1 hk)
    rw [← e, (h i hi).2 j hj, hG i hi j hj]

/-- C51, partial: right when the order of the vertex differs from that of the subcell by an exchange
of two faces, or not at all.  Missing: the two cyclic orders, for which it is false. -/
theorem C51_columns_partial {c : Corner} {σ} (ok : CornerOk c σ) (junk : Nat → Nat → ℝ)
    (hσ : ∀ i < 3, σ (σ i) = i) :
    ∃ T, cornerTrans c junk = some T ∧
      ∀ i < 3, ∀ u pb, readRow c T u pb i = cornerFlux c u pb (σ i) := by
  obtain ⟨T, hT, h⟩ := C51_columns_iff ok junk
  exact ⟨T, hT, h.2 fun i _ j hj => by rw [hσ j hj]⟩

namespace CornerWitness

def cyc : Nat → Nat
  | 0 => 1
  | 1 => 2
  | _ => 0

/-- A corner whose vertex lists the faces of the subcell in cyclic order. -/
def c : Corner :=
  { G := fun i j => if i = j then 2 else 1 + j, face := fun k => 10 + k, vface := fun k => 10 + cyc k
    internal := fun _ => false, fbnd := fun x => x - 10 }

theorem ok : CornerOk c cyc := by
  refine ⟨?_, ?_, ?_, ?_, ?_, ?_⟩
  · intro k _ k' _ e; simp [c] at e; exact e
  · intro k _ k' _ e; simp [c] at e; exact e
  · intro k _; rfl
  · intro i _; rfl
  · intro i hi; rcases i with _ | _ | _ | i <;> simp [cyc]
  · intro i hi i' hi' e
    rcases i with _ | _ | _ | i <;> rcases i' with _ | _ | _ | i' <;> simp [cyc] at e ⊢ <;> omega

/-- C51 fails: a boundary pressure that is not constant gives a wrong flux. -/
theorem wrong (junk : Nat → Nat → ℝ) : ∃ T, cornerTrans c junk = some T ∧
    ¬ ∀ i < 3, ∀ u pb, readRow c T u pb i = cornerFlux c u pb (cyc i) := by
  obtain ⟨T, hT, h⟩ := C51_columns_iff ok junk
  refine ⟨T, hT, fun hr => ?_⟩
  have := h.1 hr 0 (by norm_num) 0 (by norm_num)
  simp [c, cyc] at this

/-- Exchanging two faces. -/
def swap : Nat → Nat
  | 0 => 1
  | 1 => 0
  | n => n

def c' : Corner := { c with vface := fun k => 10 + swap k }

example : CornerOk c' swap ∧ ∀ i < 3, swap (swap i) = i := by
  refine ⟨⟨?_, ?_, ?_, ?_, ?_, ?_⟩, ?_⟩
  · intro k _ k' _ e; simp [c', c] at e; exact e
  · intro k _ k' _ e; simp [c', c] at e; exact e
  · intro k _; rfl
  · intro i _; rfl
  · intro i hi; rcases i with _ | _ | _ | i <;> simp [swap]; omega
  · intro i hi i' hi' e
    rcases i with _ | _ | _ | i <;> rcases i' with _ | _ | _ | i' <;> simp [swap] at e ⊢ <;> omega
  · intro i hi; rcases i with _ | _ | _ | i <;> simp [swap]

end CornerWitness

/-! ## C52 -/

/-- Two cells that have a region: the answer is whether the regions are the same. -/
theorem C52_query_partial (r : Region) (a b : Nat) (ha : a < r.num) (hb : b < r.num) :
    r.areSame a b ≠ 0 ↔ r.id a = r.id b := by
  unfold Region.areSame
  rw [if_neg (by omega)]
  split <;> simp_all

/-- A cell that has none: the answer is "same region", for every other cell. -/
theorem C52_query_outside (r : Region) (a b : Nat) (h : r.num ≤ a ∨ r.num ≤ b) :
    r.areSame a b ≠ 0 := by
  unfold Region.areSame
  rw [if_pos h]; norm_num

/-- A second set of cells does not add to a region, it replaces it. -/
theorem C52_add_replaces (r : Region) (n m : Nat) (ids ids' : Nat → ℤ) :
    (r.addCells n ids).addCells m ids' = r.addCells m ids' := rfl

theorem zeroFace_apply (c : Ctx) (r : Region) (f : Nat) (A : Nat → Nat → ℝ) (a b : Nat) :
    zeroFace c r f A a b =
      if a/4 = f ∧ (c.face f).up ≥ 0 ∧ (c.face f).dn ≥ 0 ∧
        r.areSame (c.face f).up.toNat (c.face f).dn.toNat = 0 then 0 else A a b := by
  unfold zeroFace
  by_cases h1 : (c.face f).up ≥ 0 ∧ (c.face f).dn ≥ 0
  · by_cases h2 : r.areSame (c.face f).up.toNat (c.face f).dn.toNat = 0
    · rw [if_pos h1, if_pos h2]
      simp only [forN]
      by_cases h : a/4 = f
      · have : a = f*4 + 0 ∨ a = f*4 + 1 ∨ a = f*4 + 2 ∨ a = f*4 + 3 := by omega
        rw [if_pos (show a/4 = f ∧ (c.face f).up ≥ 0 ∧ (c.face f).dn ≥ 0 ∧
          r.areSame (c.face f).up.toNat (c.face f).dn.toNat = 0 from ⟨h, h1.1, h1.2, h2⟩)]
        split_ifs <;> first | rfl | omega
      · rw [if_neg (show ¬ (a/4 = f ∧ (c.face f).up ≥ 0 ∧ (c.face f).dn ≥ 0 ∧
          r.areSame (c.face f).up.toNat (c.face f).dn.toNat = 0) from fun e => h e.1)]
        split_ifs <;> first | rfl | omega
    · rw [if_pos h1, if_neg h2, if_neg (fun e => h2 e.2.2.2)]
  · rw [if_neg h1, if_neg (fun e => h1 ⟨e.2.1, e.2.2.1⟩)]

theorem updateTrans_apply (c : Ctx) (n : Nat) (r : Region) (A : Nat → Nat → ℝ) (a b : Nat) :
    updateTrans c n r A a b =
      if a/4 < n ∧ (c.face (a/4)).up ≥ 0 ∧ (c.face (a/4)).dn ≥ 0 ∧
        r.areSame (c.face (a/4)).up.toNat (c.face (a/4)).dn.toNat = 0 then 0 else A a b := by
  unfold updateTrans
  induction n with
  | zero => simp [forN]
  | succ n ih =>
    simp only [forN]
    rw [zeroFace_apply, ih]
    by_cases h : a/4 = n
    · subst h
      by_cases h2 : (c.face (a/4)).up ≥ 0 ∧ (c.face (a/4)).dn ≥ 0 ∧
        r.areSame (c.face (a/4)).up.toNat (c.face (a/4)).dn.toNat = 0
      · rw [if_pos ⟨rfl, h2⟩, if_pos ⟨by omega, h2⟩]
      · rw [if_neg (fun e => h2 e.2), if_neg (fun e => h2 e.2), if_neg (fun e => h2 e.2)]
    · rw [if_neg (fun e => h e.1)]
      by_cases h3 : a/4 < n
      · have : a/4 < n + 1 := by omega
        simp only [h3, this, true_and]
      · rw [if_neg (fun e => h3 e.1), if_neg (fun e => h3 (by omega))]

/-- The mesh of a region file with one entry per cell. -/
structure RegionOk (c : Ctx) (n : Nat) (r : Region) : Prop where
  faces : FacesOk c
  slots : SlotsOk c n
  cells : c.numCells ≤ r.num
  pos : 0 < r.num

theorem regionTtimesP_eq (c : Ctx) (n : Nat) (r : Region) (ok : RegionOk c n r) (v i : Nat)
    (hs : IsSubface c v i) [Decidable (Separating c r.id (faceOf c v i))] :
    regionTtimesP c n true r (slot (c.vert v) i) =
      if Separating c r.id (faceOf c v i) then 0 else ttimesP c (slot (c.vert v) i) := by
  have hf := ok.slots.face v i hs
  have hb := ok.slots.sub v i hs
  have hq : slot (c.vert v) i/4 = (c.vert v).face i := by unfold slot; omega
  have hup := ok.faces.up v i hs
  have hdn := ok.faces.dn v i hs
  have hc := ok.cells
  unfold regionTtimesP ttimesP finalTrans
  rw [if_pos ok.pos]
  simp only [if_true, updateTrans_apply, hq]
  by_cases hsep : Separating c r.id (faceOf c v i)
  · rw [if_pos hsep]
    refine sum_eq_zero fun b _ => ?_
    rw [if_pos, zero_mul]
    refine ⟨hf, hsep.1, hsep.2.1, ?_⟩
    have := (C52_query_partial r (faceOf c v i).up.toNat (faceOf c v i).dn.toNat
      (by have := hsep.1; omega) (by have := hsep.2.1; omega)).not.2 hsep.2.2
    exact not_not.1 this
  · rw [if_neg hsep]
    refine sum_congr rfl fun b _ => ?_
    rw [if_neg]
    rintro ⟨_, h1, h2, h3⟩
    refine hsep ⟨h1, h2, fun e => ?_⟩
    exact (C52_query_partial r (faceOf c v i).up.toNat (faceOf c v i).dn.toNat
      (by change (c.face ((c.vert v).face i)).up.toNat < _
          change (c.face ((c.vert v).face i)).up < _ at hup; omega)
      (by change (c.face ((c.vert v).face i)).dn.toNat < _
          change (c.face ((c.vert v).face i)).dn < _ at hdn; omega)).2 e h3

/-- C52: faces inside a region, and boundary faces, carry what they carry without regions. -/
theorem C52_others_unaffected (c : Ctx) (n : Nat) (r : Region) (ok : RegionOk c n r) (v i : Nat)
    (hs : IsSubface c v i) (h : ¬ Separating c r.id (faceOf c v i)) :
    regionFlux c n true r v i = subfaceFlux c v i := by
  classical
  unfold regionFlux subfaceFlux
  rw [regionTtimesP_eq c n r ok v i hs, if_neg h]

/-- C52, partial: through a face between two regions flows what gravity alone drives, so nothing if
there is no gravity.  Missing: the gravity term, which is not removed. -/
theorem C52_impermeable_partial (c : Ctx) (n : Nat) (r : Region) (ok : RegionOk c n r) (v i : Nat)
    (hs : IsSubface c v i) (h : Separating c r.id (faceOf c v i)) :
    regionFlux c n true r v i =
      fluxm c (faceOf c v i) 0 (c.grav (slot (c.vert v) i)) ∧
    (c.grav (slot (c.vert v) i) = 0 → regionFlux c n true r v i = 0) := by
  classical
  have e : regionFlux c n true r v i =
      fluxm c (faceOf c v i) 0 (c.grav (slot (c.vert v) i)) := by
    unfold regionFlux
    rw [regionTtimesP_eq c n r ok v i hs, if_pos h]
  refine ⟨e, fun h0 => ?_⟩
  rw [e, h0]
  unfold fluxm
  split <;> norm_num

/-- Without the two-point transmissibilities, regions have no effect. -/
theorem C52_ignored (c : Ctx) (n : Nat) (r : Region) (v i : Nat) :
    regionFlux c n false r v i = subfaceFlux c v i := by
  unfold regionFlux subfaceFlux regionTtimesP ttimesP finalTrans
  simp

/-- C52 for the water: without gravity, what the cells of a region lose leaves through the boundary
of the mesh. -/
theorem C52_region_mass_partial (c : Ctx) (n : Nat) (r : Region) (ok : RegionOk c n r)
    (hg : ∀ s, c.grav s = 0) (ρ : ℤ) :
    (∑ j ∈ range c.numCells, if r.id j = ρ then cellOutflow c (regionFlux c n true r) j else 0) =
      overSubfaces c fun v i =>
        if 0 ≤ (faceOf c v i).up ∧ 0 ≤ (faceOf c v i).dn then 0
        else if 0 ≤ (faceOf c v i).up then
          (if r.id (faceOf c v i).up.toNat = ρ then regionFlux c n true r v i else 0)
        else if 0 ≤ (faceOf c v i).dn then
          (if r.id (faceOf c v i).dn.toNat = ρ then -regionFlux c n true r v i else 0)
        else 0 := by
  unfold cellOutflow overSubfaces
  have push : ∀ j, (if r.id j = ρ then
      ∑ v ∈ range c.numVertices, ∑ i ∈ range (c.vert v).nRows,
        ((if (faceOf c v i).up = j then regionFlux c n true r v i else 0) -
          (if (faceOf c v i).dn = j then regionFlux c n true r v i else 0)) else 0) =
      ∑ v ∈ range c.numVertices, ∑ i ∈ range (c.vert v).nRows, if r.id j = ρ then
        ((if (faceOf c v i).up = j then regionFlux c n true r v i else 0) -
          (if (faceOf c v i).dn = j then regionFlux c n true r v i else 0)) else 0 := by
    intro j; split <;> simp
  simp only [push]
  rw [sum_comm]
  refine sum_congr rfl fun v hv => ?_
  rw [sum_comm]
  refine sum_congr rfl fun i hi => ?_
  have hs : IsSubface c v i := ⟨mem_range.1 hv, mem_range.1 hi⟩
  have hup := ok.faces.up v i hs
  have hdn := ok.faces.dn v i hs
  have one : ∀ (id : ℤ) (q : ℝ), id < c.numCells →
      (∑ j ∈ range c.numCells, if r.id j = ρ then (if id = j then q else 0) else 0) =
        if 0 ≤ id then (if r.id id.toNat = ρ then q else 0) else 0 := by
    intro id q hid
    by_cases h0 : 0 ≤ id
    · rw [if_pos h0, sum_eq_single id.toNat]
      · have : id = ((id.toNat : Nat) : ℤ) := by omega
        rw [if_pos this]
      · intro b _ hb
        rw [if_neg (by omega : ¬ id = (b:ℤ))]; simp
      · intro hn; exact absurd (mem_range.2 (by omega)) hn
    · rw [if_neg h0]
      refine sum_eq_zero fun j _ => ?_
      rw [if_neg (by omega : ¬ id = (j:ℤ))]; simp
  have split : ∀ j : Nat, (if r.id j = ρ then
        ((if (faceOf c v i).up = j then regionFlux c n true r v i else 0) -
          (if (faceOf c v i).dn = j then regionFlux c n true r v i else 0)) else 0) =
      (if r.id j = ρ then (if (faceOf c v i).up = j then regionFlux c n true r v i else 0) else 0) -
      (if r.id j = ρ then (if (faceOf c v i).dn = j then regionFlux c n true r v i else 0) else 0) := by
    intro j; split_ifs <;> ring
  simp only [split]
  rw [sum_sub_distrib, one _ _ hup, one _ _ hdn]
  by_cases hu : 0 ≤ (faceOf c v i).up
  · by_cases hd : 0 ≤ (faceOf c v i).dn
    · rw [if_pos (show 0 ≤ (faceOf c v i).up ∧ 0 ≤ (faceOf c v i).dn from ⟨hu, hd⟩), if_pos hu,
        if_pos hd]
      by_cases e : r.id (faceOf c v i).up.toNat = r.id (faceOf c v i).dn.toNat
      · rw [e, sub_self]
      · have z := (C52_impermeable_partial c n r ok v i hs ⟨hu, hd, e⟩).2 (hg _)
        rw [z]; simp
    · rw [if_neg (show ¬ (0 ≤ (faceOf c v i).up ∧ 0 ≤ (faceOf c v i).dn) from fun h => hd h.2),
        if_pos hu, if_pos hu, if_neg hd, sub_zero]
  · rw [if_neg (show ¬ (0 ≤ (faceOf c v i).up ∧ 0 ≤ (faceOf c v i).dn) from fun h => hu h.1),
      if_neg hu, if_neg hu, zero_sub]
    by_cases hd : 0 ≤ (faceOf c v i).dn
    · rw [if_pos hd, if_pos hd]; split <;> simp
    · rw [if_neg hd, if_neg hd, neg_zero]

/-- Two cells of the flux witness in different regions. -/
def wRegion : Region := ⟨2, fun j => j⟩

theorem wRegionOk : RegionOk FluxWitness.c 2 wRegion := by
  refine ⟨FluxWitness.facesOk, ⟨?_, ?_⟩, le_refl _, by norm_num [wRegion]⟩
  · intro v i h; exact h.2
  · intro v i _; simp [FluxWitness.c, FluxWitness.v]

/-- Non-vacuity: the face between the two cells carries 2 without regions and 0 with them. -/
example : Separating FluxWitness.c wRegion.id (faceOf FluxWitness.c 0 0) ∧
    subfaceFlux FluxWitness.c 0 0 = 2 ∧ regionFlux FluxWitness.c 2 true wRegion 0 0 = 0 := by
  have hs : Separating FluxWitness.c wRegion.id (faceOf FluxWitness.c 0 0) := by
    refine ⟨by simp [faceOf, FluxWitness.c, FluxWitness.v, FluxWitness.face],
      by simp [faceOf, FluxWitness.c, FluxWitness.v, FluxWitness.face], ?_⟩
    simp [faceOf, FluxWitness.c, FluxWitness.v, FluxWitness.face, wRegion]
  exact ⟨hs, FluxWitness.flux.1,
    (C52_impermeable_partial _ _ _ wRegionOk 0 0 ⟨by simp [FluxWitness.c],
      by simp [FluxWitness.c, FluxWitness.v]⟩ hs).2 rfl⟩

/-- C52 fails with gravity: water falls through a face between two regions. -/
theorem C52_gravity_leaks : ∃ (c : Ctx) (r : Region), RegionOk c 2 r ∧ IsSubface c 0 0 ∧
    Separating c r.id (faceOf c 0 0) ∧ regionFlux c 2 true r 0 0 ≠ 0 := by
  have ok : RegionOk { FluxWitness.c with grav := fun _ => -1 } 2 wRegion :=
    ⟨⟨FluxWitness.facesOk.up, FluxWitness.facesOk.dn⟩, ⟨wRegionOk.slots.face, wRegionOk.slots.sub⟩,
      le_refl _, by norm_num [wRegion]⟩
  have hs : IsSubface { FluxWitness.c with grav := fun _ => -1 } 0 0 :=
    ⟨by simp [FluxWitness.c], by simp [FluxWitness.c, FluxWitness.v]⟩
  have hsep : Separating { FluxWitness.c with grav := fun _ => -1 } wRegion.id
      (faceOf { FluxWitness.c with grav := fun _ => -1 } 0 0) := by
    refine ⟨by simp [faceOf, FluxWitness.c, FluxWitness.v, FluxWitness.face],
      by simp [faceOf, FluxWitness.c, FluxWitness.v, FluxWitness.face], ?_⟩
    simp [faceOf, FluxWitness.c, FluxWitness.v, FluxWitness.face, wRegion]
  refine ⟨_, wRegion, ok, hs, hsep, ?_⟩
  rw [(C52_impermeable_partial _ _ _ ok 0 0 hs hsep).1]
  simp [fluxm, shut, driving, denAvg, ukvr, side, faceOf, FluxWitness.c, FluxWitness.v,
    FluxWitness.face, FluxWitness.s]
  norm_num

/-- The Jacobian is not told: where the zeroed row makes the flux vanish for every pressure, the
Jacobian still has the entry `-density * mobility * transmissibility` (before the sign change,
`jacEntry`), because it reads the array `Trans` and not the matrix. -/
theorem C52_jacobian_not_updated (c : Ctx) (f : MFace) (T : ℝ) (k : Nat)
    (hs : ¬ shutJ c f 0 0) :
    (∀ c' : Ctx, fluxm c' f 0 0 = 0) ∧ jacEntry c f 0 0 T k = denAvg c f*ukvr c f 0 0*T := by
  constructor
  · intro c'
    unfold fluxm
    split <;> norm_num
  · have e : denAvgJ c f = denAvg c f := by unfold denAvgJ denAvg; norm_num; ring
    have e2 : ukvrJ c f 0 0 = ukvr c f 0 0 := by
      unfold ukvrJ ukvr drivingJ driving; rw [e]
    unfold jacEntry
    dsimp only
    rw [if_neg hs, e, e2]
    split_ifs <;> ring

end

end TDy.Mpfao.Props
