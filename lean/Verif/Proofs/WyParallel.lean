import Verif.Proofs.WyBalance
import Verif.Spec.WyParallel

/-!
# Stencils of the WY method in another numbering
-/

namespace TDy.Fe.Proofs

open TDy.Fe TDy.Fe.Spec Finset

noncomputable section

theorem turn_sq (w : WyView) (f : Nat) : w.turn f*w.turn f = 1 := by
  unfold WyView.turn
  split <;> norm_num

/-! ### Matrices in another order and with rows turned -/

section order

variable {n m n' m' : Nat} {A : Matrix (Fin n) (Fin n) ℝ} {B : Matrix (Fin n) (Fin m) ℝ}
  {A' : Matrix (Fin n') (Fin n') ℝ} {B' : Matrix (Fin n') (Fin m') ℝ}
  {e : Fin n' ≃ Fin n} {k : Fin m' ≃ Fin m} {d : Fin n' → ℝ}

theorem turned_inv (hd : ∀ i, d i*d i = 1) (hA : ∀ i j, A' i j = d i*d j*A (e i) (e j)) :
    A'⁻¹ = Matrix.diagonal d*A⁻¹.submatrix e e*Matrix.diagonal d := by
  have hD : Matrix.diagonal d*Matrix.diagonal d = 1 := by
    rw [Matrix.diagonal_mul_diagonal]
    simp only [hd]
    exact Matrix.diagonal_one
  have hDi : (Matrix.diagonal d)⁻¹ = Matrix.diagonal d := Matrix.inv_eq_left_inv hD
  have hA' : A' = Matrix.diagonal d*A.submatrix e e*Matrix.diagonal d := by
    ext i j
    rw [Matrix.mul_diagonal, Matrix.diagonal_mul, hA, Matrix.submatrix_apply]
    ring
  rw [hA', Matrix.mul_inv_rev, Matrix.mul_inv_rev, hDi, Matrix.inv_submatrix_equiv, Matrix.mul_assoc]

theorem turned_half (hd : ∀ i, d i*d i = 1) (hA : ∀ i j, A' i j = d i*d j*A (e i) (e j))
    (hB : ∀ i j, B' i j = d i*B (e i) (k j)) :
    B'.transpose*A'⁻¹ = (B.transpose*A⁻¹).submatrix k e*Matrix.diagonal d := by
  have hD : Matrix.diagonal d*Matrix.diagonal d = 1 := by
    rw [Matrix.diagonal_mul_diagonal]
    simp only [hd]
    exact Matrix.diagonal_one
  have hB' : B'.transpose = (B.transpose).submatrix k e*Matrix.diagonal d := by
    ext i j
    rw [Matrix.mul_diagonal, Matrix.transpose_apply, hB, Matrix.submatrix_apply, Matrix.transpose_apply]
    ring
  rw [turned_inv hd hA, hB', Matrix.mul_assoc, ← Matrix.mul_assoc (Matrix.diagonal d),
    ← Matrix.mul_assoc (Matrix.diagonal d), hD, Matrix.one_mul, ← Matrix.mul_assoc,
    Matrix.submatrix_mul_equiv]

theorem turned_stencil (hd : ∀ i, d i*d i = 1) (hA : ∀ i j, A' i j = d i*d j*A (e i) (e j))
    (hB : ∀ i j, B' i j = d i*B (e i) (k j)) :
    B'.transpose*A'⁻¹*B' = (B.transpose*A⁻¹*B).submatrix k k := by
  have hD : Matrix.diagonal d*Matrix.diagonal d = 1 := by
    rw [Matrix.diagonal_mul_diagonal]
    simp only [hd]
    exact Matrix.diagonal_one
  have hB' : B' = Matrix.diagonal d*B.submatrix e k := by
    ext i j
    rw [Matrix.diagonal_mul, hB, Matrix.submatrix_apply]
  rw [turned_half hd hA hB, hB', Matrix.mul_assoc, ← Matrix.mul_assoc (Matrix.diagonal d), hD,
    Matrix.one_mul, Matrix.submatrix_mul_equiv]

theorem turned_given {G : Fin n → ℝ} {G' : Fin n' → ℝ} (hd : ∀ i, d i*d i = 1)
    (hA : ∀ i j, A' i j = d i*d j*A (e i) (e j))
    (hB : ∀ i j, B' i j = d i*B (e i) (k j)) (hG : ∀ i, G' i = d i*G (e i)) (j : Fin m') :
    (B'.transpose*A'⁻¹).mulVec G' j = (B.transpose*A⁻¹).mulVec G (k j) := by
  rw [turned_half hd hA hB, Matrix.mulVec, Matrix.mulVec, dotProduct, dotProduct]
  refine Eq.trans ?_ (e.sum_comp (fun i => (B.transpose*A⁻¹) (k j) i*G i))
  refine sum_congr rfl fun i _ => ?_
  rw [Matrix.mul_diagonal, hG, Matrix.submatrix_apply]
  rw [show (B.transpose*A⁻¹) (k j) (e i)*d i*(d i*G (e i))
    = d i*d i*((B.transpose*A⁻¹) (k j) (e i)*G (e i)) by ring, hd, one_mul]

end order

/-- Places in a list, and places of the same things in another list. -/
theorem places_equiv {a b : List Nat} {f : Nat → Nat} (hp : (a.map f).Perm b) (hb : b.Nodup) :
    ∃ e : Fin a.length ≃ Fin b.length, ∀ i : Fin a.length, (e i : Nat) = b.idxOf (f a[i]) := by
  have hmem : ∀ i : Fin a.length, f a[i] ∈ b := fun i =>
    hp.subset (List.mem_map.2 ⟨a[i], List.getElem_mem _, rfl⟩)
  have hn : (a.map f).Nodup := hp.nodup_iff.2 hb
  let φ : Fin a.length → Fin b.length := fun i => ⟨b.idxOf (f a[i]), List.idxOf_lt_length_iff.2 (hmem i)⟩
  have hinj : Function.Injective φ := by
    intro i j h
    have h1 : b.idxOf (f a[i]) = b.idxOf (f a[j]) := congrArg Fin.val h
    have h2 := (List.idxOf_inj (hmem i)).1 h1
    have h3 : (a.map f)[(i : Nat)]'(by simp) = (a.map f)[(j : Nat)]'(by simp) := by
      rw [List.getElem_map, List.getElem_map]
      exact h2
    exact Fin.ext ((hn.getElem_inj_iff).1 h3)
  have hcard : Fintype.card (Fin a.length) = Fintype.card (Fin b.length) := by
    rw [Fintype.card_fin, Fintype.card_fin, ← hp.length_eq, List.length_map]
  refine ⟨Equiv.ofBijective φ ((Fintype.bijective_iff_injective_and_card φ).2 ⟨hinj, hcard⟩), fun i => rfl⟩

/-- Sums over a list in another order. -/
theorem sum_relabelled {a b : List Nat} {f : Nat → Nat} (hp : (a.map f).Perm b) (hb : b.Nodup)
    (g : Nat → ℝ) : ∑ x ∈ b.toFinset, g x = ∑ x ∈ a.toFinset, g (f x) := by
  have hn : (a.map f).Nodup := hp.nodup_iff.2 hb
  symm
  refine sum_bij (fun x _ => f x) ?_ ?_ ?_ ?_
  · intro x hx
    exact List.mem_toFinset.2 (hp.subset (List.mem_map.2 ⟨x, List.mem_toFinset.1 hx, rfl⟩))
  · intro x hx y hy h
    exact List.inj_on_of_nodup_map hn (List.mem_toFinset.1 hx) (List.mem_toFinset.1 hy) h
  · intro y hy
    obtain ⟨x, hx, rfl⟩ := List.mem_map.1 (hp.symm.subset (List.mem_toFinset.1 hy))
    exact ⟨x, List.mem_toFinset.2 hx, rfl⟩
  · intro x _
    rfl

/-! ### The largest entry -/

theorem forN_max_le (n : Nat) (x m y : ℝ) (f : Nat → ℝ) (h : x = forN n (fun j m => max m (f j)) m) :
    x ≤ y ↔ m ≤ y ∧ ∀ j < n, f j ≤ y := by
  subst h
  induction n with
  | zero => simp [forN]
  | succ n ih =>
    rw [forN, max_le_iff, ih]
    constructor
    · rintro ⟨⟨h1, h2⟩, h3⟩
      refine ⟨h1, fun j hj => ?_⟩
      by_cases hjn : j = n
      · exact hjn ▸ h3
      · exact h2 j (by omega)
    · rintro ⟨h1, h2⟩
      exact ⟨⟨h1, fun j hj => h2 j (by omega)⟩, h2 n (by omega)⟩

theorem maxAbs_le_iff (n : Nat) (C : Nat → Nat → ℝ) (y : ℝ) :
    maxAbs n C ≤ y ↔ 0 ≤ y ∧ ∀ i < n, ∀ j < n, |C j i| ≤ y := by
  unfold maxAbs
  suffices h : ∀ m, forN m (fun i m => forN n (fun j m => max m |C j i|) m) 0 ≤ y
      ↔ 0 ≤ y ∧ ∀ i < m, ∀ j < n, |C j i| ≤ y from h n
  intro m
  induction m with
  | zero => simp [forN]
  | succ m ih =>
    rw [forN, forN_max_le n _ _ y (fun j => |C j m|) rfl, ih]
    constructor
    · rintro ⟨⟨h1, h2⟩, h3⟩
      refine ⟨h1, fun i hi => ?_⟩
      by_cases him : i = m
      · exact him ▸ h3
      · exact h2 i (by omega)
    · rintro ⟨h1, h2⟩
      exact ⟨⟨h1, fun i hi => h2 i (by omega)⟩, h2 m (by omega)⟩

/-! ### One vertex, seen by a process -/

section vertex

variable {g l : Wy} {Kg Kl : Nat → Nat → ℝ} {w : WyView} {v : Nat} {corg corl : Nat → Nat}
  {eg el : Local}

theorem cornerMass_seen (hw : SeesWy g l Kg Kl w) {a q : Nat} (ha : a < l.nCells) (hq : q < l.nq)
    (i j : Nat) : cornerMass l Kl a q i j = cornerMass g Kg (w.cell a) q i j := by
  unfold cornerMass
  rw [hw.perm a ha, hw.inverse a ha q hq, hw.jac a ha q hq, hw.dim]

theorem cell_there (hw : SeesWy g l Kg Kl w) (hv : OwnCorner l v) {a : Nat} (ha : a ∈ l.cells v) :
    w.cell a ∈ g.cells (w.vert v) := (hw.cells v hv).subset (List.mem_map.2 ⟨a, ha, rfl⟩)

theorem face_there (hw : SeesWy g l Kg Kl w) (hv : OwnCorner l v) {f : Nat} (hf : f ∈ l.faces v) :
    w.face f ∈ g.faces (w.vert v) := (hw.faces v hv).subset (List.mem_map.2 ⟨f, hf, rfl⟩)

theorem cor_seen (hw : SeesWy g l Kg Kl w) (hv : OwnCorner l v) (hl : Star l v corl)
    (hg : Star g (w.vert v) corg) {a : Nat} (ha : a ∈ l.cells v) : corg (w.cell a) = corl a := by
  have h1 := hw.corner v hv a ha (corl a) (hl.cor_lt a ha) (hl.cor_at a ha)
  exact (hg.cor_only (w.cell a) (cell_there hw hv ha) (corl a) (hw.nq ▸ hl.cor_lt a ha) h1).symm

theorem face_seen (hw : SeesWy g l Kg Kl w) (hv : OwnCorner l v) (hl : Star l v corl)
    (hg : Star g (w.vert v) corg) {a i : Nat} (ha : a ∈ l.cells v) (hi : i < l.dim) :
    g.face (w.cell a) (corg (w.cell a)) i = w.face (l.face a (corl a) i) := by
  rw [cor_seen hw hv hl hg ha]
  exact hw.face v hv a ha _ (hl.cor_lt a ha) (hl.cor_at a ha) i hi

theorem sign_seen (hw : SeesWy g l Kg Kl w) (hv : OwnCorner l v) (hl : Star l v corl)
    (hg : Star g (w.vert v) corg) {a i : Nat} (ha : a ∈ l.cells v) (hi : i < l.dim) :
    l.sign a (corl a) i = w.turn (l.face a (corl a) i)*g.sign (w.cell a) (corg (w.cell a)) i := by
  rw [cor_seen hw hv hl hg ha]
  exact hw.sign v hv a ha _ (hl.cor_lt a ha) (hl.cor_at a ha) i hi

theorem wgt_seen (hw : SeesWy g l Kg Kl w) : wgt l = wgt g := by
  unfold wgt
  rw [hw.dim]

theorem Fi_seen (hw : SeesWy g l Kg Kl w) (hv : OwnCorner l v) (hg : Star g (w.vert v) corg) {f f' : Nat}
    (hf : f ∈ l.faces v) (hf' : f' ∈ l.faces v) :
    Fi g (w.vert v) (w.face f) = Fi g (w.vert v) (w.face f') ↔ Fi l v f = Fi l v f' := by
  rw [Fi_eq (face_there hw hv hf), Fi_eq hf]
  constructor
  · intro h
    exact List.inj_on_of_nodup_map ((hw.faces v hv).nodup_iff.2 hg.faces_nodup) hf hf' h
  · intro h
    rw [h]

theorem bTerm_seen (hw : SeesWy g l Kg Kl w) (hv : OwnCorner l v) (hl : Star l v corl)
    (hg : Star g (w.vert v) corg) {a i : Nat} (ha : a ∈ l.cells v) (hi : i < l.dim) :
    bTerm l corl a i = w.turn (l.face a (corl a) i)*bTerm g corg (w.cell a) i := by
  unfold bTerm
  rw [sign_seen hw hv hl hg ha hi, wgt_seen hw, hw.area v hv _ (hl.face_mem a ha i hi),
    face_seen hw hv hl hg ha hi]
  ring

theorem aTerm_seen (hw : SeesWy g l Kg Kl w) (hv : OwnCorner l v) (hl : Star l v corl)
    (hg : Star g (w.vert v) corg) (hel : ∀ c < l.nCells, LocalIs l Kl el c)
    (heg : ∀ c < g.nCells, LocalIs g Kg eg c) {a i j : Nat} (ha : a ∈ l.cells v) (hi : i < l.dim)
    (hj : j < l.dim) :
    aTerm l el.A corl a i j = w.turn (l.face a (corl a) i)*w.turn (l.face a (corl a) j)
      *aTerm g eg.A corg (w.cell a) i j := by
  have hlt := cells_lt ha
  have hq := hl.cor_lt a ha
  unfold aTerm
  rw [((hel a hlt).1 _ hq).2.2 i hi j hj,
    ((heg (w.cell a) (hw.cellLt a hlt)).1 (corg (w.cell a)) (by
      rw [cor_seen hw hv hl hg ha, ← hw.nq]; exact hq)).2.2 i (hw.dim ▸ hi) j (hw.dim ▸ hj),
    cornerMass_seen hw hlt hq, sign_seen hw hv hl hg ha hi, sign_seen hw hv hl hg ha hj,
    hw.area v hv _ (hl.face_mem a ha i hi), hw.area v hv _ (hl.face_mem a ha j hj),
    face_seen hw hv hl hg ha hi, face_seen hw hv hl hg ha hj, cor_seen hw hv hl hg ha]
  ring

theorem aMat_seen (hw : SeesWy g l Kg Kl w) (hv : OwnCorner l v) (hl : Star l v corl)
    (hg : Star g (w.vert v) corg) (hel : ∀ c < l.nCells, LocalIs l Kl el c)
    (heg : ∀ c < g.nCells, LocalIs g Kg eg c) {f f' : Nat} (hf : f ∈ l.faces v) (hf' : f' ∈ l.faces v) :
    aMat l el.A v corl (Fi l v f) (Fi l v f') = w.turn f*w.turn f'
      *aMat g eg.A (w.vert v) corg (Fi g (w.vert v) (w.face f)) (Fi g (w.vert v) (w.face f')) := by
  unfold aMat
  rw [sum_relabelled (hw.cells v hv) hg.cells_nodup, mul_sum]
  refine sum_congr rfl fun a ha => ?_
  have ha' := List.mem_toFinset.1 ha
  rw [mul_sum, hw.dim]
  refine sum_congr rfl fun i hi => ?_
  rw [mul_sum]
  refine sum_congr rfl fun j hj => ?_
  have hi' : i < l.dim := hw.dim ▸ mem_range.1 hi
  have hj' : j < l.dim := hw.dim ▸ mem_range.1 hj
  rw [face_seen hw hv hl hg ha' hi', face_seen hw hv hl hg ha' hj']
  simp only [Fi_seen hw hv hg hf (hl.face_mem a ha' i hi'), Fi_seen hw hv hg hf' (hl.face_mem a ha' j hj')]
  split
  · rename_i h
    rw [(Fi_eq hf).1 h.1, (Fi_eq hf').1 h.2, aTerm_seen hw hv hl hg hel heg ha' hi' hj']
  · rw [mul_zero]

theorem bMat_seen (hw : SeesWy g l Kg Kl w) (hv : OwnCorner l v) (hl : Star l v corl)
    (hg : Star g (w.vert v) corg) {f c : Nat} (hf : f ∈ l.faces v) (hc : c ∈ l.cells v) :
    bMat l v corl (Fi l v f) (Ci l v c) = w.turn f
      *bMat g (w.vert v) corg (Fi g (w.vert v) (w.face f)) (Ci g (w.vert v) (w.cell c)) := by
  rw [bMat_col hc, bMat_col (cell_there hw hv hc), mul_sum, hw.dim]
  refine sum_congr rfl fun i hi => ?_
  have hi' : i < l.dim := hw.dim ▸ mem_range.1 hi
  rw [face_seen hw hv hl hg hc hi']
  simp only [Fi_seen hw hv hg hf (hl.face_mem c hc i hi')]
  split
  · rename_i h
    rw [(Fi_eq hf).1 h, bTerm_seen hw hv hl hg hc hi']
  · rw [mul_zero]

theorem gVec_seen (hw : SeesWy g l Kg Kl w) (hv : OwnCorner l v) (hl : Star l v corl)
    (hg : Star g (w.vert v) corg) {f : Nat} (hf : f ∈ l.faces v) :
    gVec l v corl (Fi l v f) = w.turn f*gVec g (w.vert v) corg (Fi g (w.vert v) (w.face f)) := by
  unfold gVec
  rw [sum_relabelled (hw.cells v hv) hg.cells_nodup, mul_sum]
  refine sum_congr rfl fun a ha => ?_
  have ha' := List.mem_toFinset.1 ha
  rw [mul_sum, hw.dim]
  refine sum_congr rfl fun i hi => ?_
  have hi' : i < l.dim := hw.dim ▸ mem_range.1 hi
  have hm := hl.face_mem a ha' i hi'
  rw [face_seen hw hv hl hg ha' hi', hw.given v hv _ hm, hw.hasPressure]
  simp only [Fi_seen hw hv hg hf hm]
  split
  · rename_i h
    rw [(Fi_eq hf).1 h.1, bTerm_seen hw hv hl hg ha' hi', hw.value v hv _ hm]
    ring
  · rw [mul_zero]

theorem fVec_seen (hw : SeesWy g l Kg Kl w) (hv : OwnCorner l v) (hl : Star l v corl)
    (hg : Star g (w.vert v) corg) {pl pg : Nat → ℝ} (hp : ∀ a ∈ l.cells v, pl a = pg (w.cell a)) {f : Nat}
    (hf : f ∈ l.faces v) :
    fVec l pl v corl (Fi l v f) = w.turn f*fVec g pg (w.vert v) corg (Fi g (w.vert v) (w.face f)) := by
  unfold fVec
  rw [gVec_seen hw hv hl hg hf, mul_sub, sum_relabelled (hw.cells v hv) hg.cells_nodup, mul_sum]
  congr 1
  refine sum_congr rfl fun a ha => ?_
  have ha' := List.mem_toFinset.1 ha
  rw [mul_sum, hw.dim]
  refine sum_congr rfl fun i hi => ?_
  have hi' : i < l.dim := hw.dim ▸ mem_range.1 hi
  have hm := hl.face_mem a ha' i hi'
  rw [face_seen hw hv hl hg ha' hi']
  simp only [Fi_seen hw hv hg hf hm]
  split
  · rename_i h
    rw [(Fi_eq hf).1 h, bTerm_seen hw hv hl hg ha' hi', hp a ha']
    ring
  · rw [mul_zero]

theorem Fi_getElem (hl : Star l v corl) (i : Fin (l.faces v).length) : Fi l v (l.faces v)[i] = i := by
  unfold Fi
  exact hl.faces_nodup.idxOf_getElem _ _

theorem Ci_getElem (hl : Star l v corl) (i : Fin (l.cells v).length) : Ci l v (l.cells v)[i] = i := by
  unfold Ci
  exact hl.cells_nodup.idxOf_getElem _ _

/-- The stencil of a vertex of its own cells is the same on the process. -/
theorem stencil_seen (hw : SeesWy g l Kg Kl w) (hv : OwnCorner l v) (hl : Star l v corl)
    (hg : Star g (w.vert v) corg) (hel : ∀ c < l.nCells, LocalIs l Kl el c)
    (heg : ∀ c < g.nCells, LocalIs g Kg eg c) {c : Nat} (hc : c ∈ l.cells v) :
    (∀ c' ∈ l.cells v, cMat l el.A v corl (Ci l v c) (Ci l v c')
      = cMat g eg.A (w.vert v) corg (Ci g (w.vert v) (w.cell c)) (Ci g (w.vert v) (w.cell c')))
    ∧ dVec l el.A v corl (Ci l v c) = dVec g eg.A (w.vert v) corg (Ci g (w.vert v) (w.cell c)) := by
  obtain ⟨e, he⟩ := places_equiv (hw.faces v hv) hg.faces_nodup
  obtain ⟨k, hk⟩ := places_equiv (hw.cells v hv) hg.cells_nodup
  set d : Fin (l.faces v).length → ℝ := fun i => w.turn (l.faces v)[i] with hdd
  have hd : ∀ i, d i*d i = 1 := fun i => turn_sq w _
  have hA : ∀ i j, mat (l.faces v).length (l.faces v).length (aMat l el.A v corl) i j
      = d i*d j*mat (g.faces (w.vert v)).length (g.faces (w.vert v)).length
        (aMat g eg.A (w.vert v) corg) (e i) (e j) := by
    intro i j
    show aMat l el.A v corl i j = _*aMat g eg.A (w.vert v) corg (e i) (e j)
    have := aMat_seen hw hv hl hg hel heg (List.getElem_mem i.2) (List.getElem_mem j.2)
    rw [he, he]
    rwa [show Fi l v ((l.faces v)[(i : Nat)]'i.2) = i from Fi_getElem hl i,
      show Fi l v ((l.faces v)[(j : Nat)]'j.2) = j from Fi_getElem hl j] at this
  have hB : ∀ i j, mat (l.faces v).length (l.cells v).length (bMat l v corl) i j
      = d i*mat (g.faces (w.vert v)).length (g.cells (w.vert v)).length
        (bMat g (w.vert v) corg) (e i) (k j) := by
    intro i j
    show bMat l v corl i j = _*bMat g (w.vert v) corg (e i) (k j)
    have := bMat_seen hw hv hl hg (List.getElem_mem i.2) (List.getElem_mem j.2)
    rw [he, hk]
    rwa [show Fi l v ((l.faces v)[(i : Nat)]'i.2) = i from Fi_getElem hl i,
      show Ci l v ((l.cells v)[(j : Nat)]'j.2) = j from Ci_getElem hl j] at this
  have hG : ∀ i, vec (l.faces v).length (gVec l v corl) i
      = d i*vec (g.faces (w.vert v)).length (gVec g (w.vert v) corg) (e i) := by
    intro i
    show gVec l v corl i = _*gVec g (w.vert v) corg (e i)
    have := gVec_seen hw hv hl hg (List.getElem_mem i.2)
    rw [he]
    rwa [show Fi l v ((l.faces v)[(i : Nat)]'i.2) = i from Fi_getElem hl i] at this
  have hkc : ∀ c (h : c ∈ l.cells v), k ⟨Ci l v c, Ci_lt h⟩
      = ⟨Ci g (w.vert v) (w.cell c), Ci_lt (cell_there hw hv h)⟩ := by
    intro c h
    apply Fin.ext
    rw [hk]
    show (g.cells (w.vert v)).idxOf (w.cell ((l.cells v)[Ci l v c]'(Ci_lt h))) = _
    rw [show (l.cells v)[Ci l v c]'(Ci_lt h) = c from List.getElem_idxOf (Ci_lt h)]
    rfl
  refine ⟨fun c' hc' => ?_, ?_⟩
  · unfold cMat entry
    rw [dif_pos ⟨Ci_lt hc, Ci_lt hc'⟩, dif_pos ⟨Ci_lt (cell_there hw hv hc), Ci_lt (cell_there hw hv hc')⟩,
      turned_stencil hd hA hB, Matrix.submatrix_apply, hkc c hc, hkc c' hc']
  · unfold dVec entry1
    rw [dif_pos (Ci_lt hc), dif_pos (Ci_lt (cell_there hw hv hc)), turned_given hd hA hB hG, hkc c hc]

theorem places_cells (hl : Star l v corl) {i : Nat} (hi : i < (l.cells v).length) :
    ∃ c ∈ l.cells v, Ci l v c = i :=
  ⟨(l.cells v)[i], List.getElem_mem _, Ci_getElem hl ⟨i, hi⟩⟩

theorem max_seen (hw : SeesWy g l Kg Kl w) (hv : OwnCorner l v) (hl : Star l v corl)
    (hg : Star g (w.vert v) corg) (hel : ∀ c < l.nCells, LocalIs l Kl el c)
    (heg : ∀ c < g.nCells, LocalIs g Kg eg c) :
    maxAbs (l.cells v).length (cMat l el.A v corl)
      = maxAbs (g.cells (w.vert v)).length (cMat g eg.A (w.vert v) corg) := by
  apply le_antisymm
  · rw [maxAbs_le_iff]
    have := (maxAbs_le_iff _ (cMat g eg.A (w.vert v) corg) _).1 (le_refl
      (maxAbs (g.cells (w.vert v)).length (cMat g eg.A (w.vert v) corg)))
    refine ⟨this.1, fun i hi j hj => ?_⟩
    obtain ⟨c, hc, rfl⟩ := places_cells hl hi
    obtain ⟨c', hc', rfl⟩ := places_cells hl hj
    rw [(stencil_seen hw hv hl hg hel heg hc').1 c hc]
    exact this.2 _ (Ci_lt (cell_there hw hv hc)) _ (Ci_lt (cell_there hw hv hc'))
  · rw [maxAbs_le_iff]
    have := (maxAbs_le_iff _ (cMat l el.A v corl) _).1 (le_refl
      (maxAbs (l.cells v).length (cMat l el.A v corl)))
    refine ⟨this.1, fun i hi j hj => ?_⟩
    obtain ⟨x, hx, rfl⟩ := places_cells hg hi
    obtain ⟨y, hy, rfl⟩ := places_cells hg hj
    obtain ⟨c, hc, rfl⟩ := List.mem_map.1 ((hw.cells v hv).symm.subset hx)
    obtain ⟨c', hc', rfl⟩ := List.mem_map.1 ((hw.cells v hv).symm.subset hy)
    rw [← (stencil_seen hw hv hl hg hel heg hc').1 c hc]
    exact this.2 _ (Ci_lt hc) _ (Ci_lt hc')

theorem kept_seen (hw : SeesWy g l Kg Kl w) (hv : OwnCorner l v) (hl : Star l v corl)
    (hg : Star g (w.vert v) corg) (hel : ∀ c < l.nCells, LocalIs l Kl el c)
    (heg : ∀ c < g.nCells, LocalIs g Kg eg c) {c c' : Nat} (hc : c ∈ l.cells v) (hc' : c' ∈ l.cells v) :
    kept l.tol (l.cells v).length (cMat l el.A v corl) (Ci l v c) (Ci l v c')
      = kept g.tol (g.cells (w.vert v)).length (cMat g eg.A (w.vert v) corg)
        (Ci g (w.vert v) (w.cell c)) (Ci g (w.vert v) (w.cell c')) := by
  unfold kept
  rw [max_seen hw hv hl hg hel heg, (stencil_seen hw hv hl hg hel heg hc).1 c' hc', hw.tol]

end vertex

/-! ### Rows -/

/-- An entry of a row of this process after a stencil. -/
theorem insert_entry {w : Wy} {v : Nat} {cor : Nat → Nat} (h : Star w v cor)
    (hrow : ∀ c < w.nCells, ∀ c' < w.nCells, w.row c = w.row c' → c = c') (C : Nat → Nat → ℝ) (D : Nat → ℝ)
    (s : Sys) {c : Nat} (hc : c < w.nCells) (ho : 0 ≤ w.global c) (b : Nat) :
    (insertStencil w (w.cells v) C D s).K (w.row c) b = s.K (w.row c) b
      + (if c ∈ w.cells v then ∑ c' ∈ (w.cells v).toFinset,
          if b = w.row c' then kept w.tol (w.cells v).length C (Ci w v c) (Ci w v c') else 0 else 0)
    ∧ (insertStencil w (w.cells v) C D s).F (w.row c) = s.F (w.row c)
      + if c ∈ w.cells v then D (Ci w v c) else 0 := by
  have hin : ∀ m ∈ range (w.cells v).length, (w.cells v).getD m 0 < w.nCells := by
    intro m hm
    rw [getD_lt _ (mem_range.1 hm)]
    exact cells_lt (List.getElem_mem _)
  have hplace : ∀ m ∈ range (w.cells v).length, w.row c = w.row ((w.cells v).getD m 0) →
      c ∈ w.cells v ∧ m = Ci w v c := by
    intro m hm hr
    have hcm := hrow c hc _ (hin m hm) hr
    have hm' := mem_range.1 hm
    rw [getD_lt _ hm'] at hcm
    refine ⟨hcm ▸ List.getElem_mem hm', ?_⟩
    unfold Ci
    rw [hcm, h.cells_nodup.idxOf_getElem]
  by_cases hcv : c ∈ w.cells v
  · rw [if_pos hcv, if_pos hcv]
    have hget := Ci_get hcv
    have hmem : Ci w v c ∈ range (w.cells v).length := mem_range.2 (Ci_lt hcv)
    constructor
    · rw [insert_K, sum_eq_single (Ci w v c)]
      · rw [hget, if_pos ho]
        congr 1
        rw [← sum_cells_places h.cells_nodup]
        refine sum_congr rfl fun q hq => ?_
        have hq' := mem_range.1 hq
        have hCi : Ci w v ((w.cells v).getD q 0) = q := by
          rw [getD_lt _ hq']
          exact Ci_getElem h ⟨q, hq'⟩
        rw [hCi]
        unfold kept
        split
        · split <;> rfl
        · refine if_congr ?_ rfl rfl
          simp
      · intro m hm hne
        split
        · refine sum_eq_zero fun q _ => ?_
          split
          · rfl
          · rw [if_neg]
            rintro ⟨hr, _⟩
            exact hne (hplace m hm hr).2
        · rfl
      · intro hn
        exact absurd hmem hn
    · rw [insert_F, sum_eq_single (Ci w v c)]
      · rw [hget, if_pos ho, if_pos rfl]
      · intro m hm hne
        split
        · rw [if_neg]
          intro hr
          exact hne (hplace m hm hr).2
        · rfl
      · intro hn
        exact absurd hmem hn
  · rw [if_neg hcv, if_neg hcv, add_zero, add_zero]
    constructor
    · rw [insert_K, sum_eq_zero, add_zero]
      intro m hm
      split
      · refine sum_eq_zero fun q _ => ?_
        split
        · rfl
        · rw [if_neg]
          rintro ⟨hr, _⟩
          exact hcv (hplace m hm hr).1
      · rfl
    · rw [insert_F, sum_eq_zero, add_zero]
      intro m hm
      split
      · rw [if_neg]
        intro hr
        exact hcv (hplace m hm hr).1
      · rfl

/-- Rows of this process after the whole computation, from nothing. -/
theorem system_entry {w : Wy} {K : Nat → Nat → ℝ} {l l' : Local} {s' : Sys} {cor : Nat → Nat → Nat}
    (hstar : ∀ v, w.vStart ≤ v → v < w.vEnd → Star w v (cor v))
    (hrow : ∀ c < w.nCells, ∀ c' < w.nCells, w.row c = w.row c' → c = c')
    (hok : wyComputeSystem w K l ⟨fun _ _ => 0, fun _ => 0⟩ = .ok (l', s')) {c : Nat} (hc : c < w.nCells)
    (ho : 0 ≤ w.global c) (b : Nat) :
    s'.K (w.row c) b = (∑ v ∈ Ico w.vStart w.vEnd, if c ∈ w.cells v then ∑ c' ∈ (w.cells v).toFinset,
      (if b = w.row c' then kept w.tol (w.cells v).length (cMat w l'.A v (cor v)) (Ci w v c) (Ci w v c')
        else 0) else 0)
    ∧ s'.F (w.row c) = (∑ v ∈ Ico w.vStart w.vEnd, if c ∈ w.cells v then
        dVec w l'.A v (cor v) (Ci w v c) else 0) + l'.F c := by
  obtain ⟨_, t, ht, rfl⟩ := system_parts hok
  rw [forcing_K, forcing_F, sum_Ico_eq_sum_range, sum_Ico_eq_sum_range]
  have hF : (∑ c' ∈ range w.nCells, if 0 ≤ w.global c' then (if w.row c = w.row c' then l'.F c' else 0)
      else 0) = l'.F c := by
    rw [sum_eq_single c]
    · rw [if_pos ho, if_pos rfl]
    · intro c' hc' hne
      split
      · rw [if_neg]
        intro hr
        exact hne (hrow c hc c' (mem_range.1 hc') hr).symm
      · rfl
    · intro hn
      exact absurd (mem_range.2 hc) hn
  rw [hF]
  suffices h : t.K (w.row c) b = (∑ k ∈ range (w.vEnd - w.vStart), if c ∈ w.cells (w.vStart + k) then
      ∑ c' ∈ (w.cells (w.vStart + k)).toFinset, (if b = w.row c' then kept w.tol
        (w.cells (w.vStart + k)).length (cMat w l'.A (w.vStart + k) (cor (w.vStart + k)))
        (Ci w (w.vStart + k) c) (Ci w (w.vStart + k) c') else 0) else 0)
    ∧ t.F (w.row c) = (∑ k ∈ range (w.vEnd - w.vStart), if c ∈ w.cells (w.vStart + k) then
        dVec w l'.A (w.vStart + k) (cor (w.vStart + k)) (Ci w (w.vStart + k) c) else 0) by
    exact ⟨h.1, by rw [h.2]⟩
  refine forN_res _ (fun k => systemVertex w l'.A (w.vStart + k)) (fun m (t : Sys) =>
    t.K (w.row c) b = (∑ k ∈ range m, if c ∈ w.cells (w.vStart + k) then
      ∑ c' ∈ (w.cells (w.vStart + k)).toFinset, (if b = w.row c' then kept w.tol
        (w.cells (w.vStart + k)).length (cMat w l'.A (w.vStart + k) (cor (w.vStart + k)))
        (Ci w (w.vStart + k) c) (Ci w (w.vStart + k) c') else 0) else 0)
    ∧ t.F (w.row c) = (∑ k ∈ range m, if c ∈ w.cells (w.vStart + k) then
        dVec w l'.A (w.vStart + k) (cor (w.vStart + k)) (Ci w (w.vStart + k) c) else 0))
    _ t (by simp) ?_ ht
  rintro m hm t t' ⟨h1, h2⟩ hstep
  have hst := hstar (w.vStart + m) (by omega) (by omega)
  obtain ⟨hd, rfl⟩ := stencil_ok hst hstep
  obtain ⟨k1, k2⟩ := insert_entry hst hrow (cMat w l'.A (w.vStart + m) (cor (w.vStart + m)))
    (dVec w l'.A (w.vStart + m) (cor (w.vStart + m))) t hc ho b
  unfold cMat dVec at k1 k2
  rw [k1, k2, h1, h2, sum_range_succ, sum_range_succ]
  exact ⟨rfl, rfl⟩

/-- A step that succeeds inserts some stencil. -/
theorem vertex_inserts {w : Wy} {Al : Nat → Nat → Nat → ℝ} {v : Nat} {s s' : Sys}
    (hok : systemVertex w Al v s = .ok s') : ∃ C D, s' = insertStencil w (w.cells v) C D s := by
  unfold systemVertex at hok
  split at hok
  · split at hok
    · rw [Res.ok.injEq] at hok
      exact ⟨_, _, hok.symm⟩
    · exact absurd hok (by simp)
    · exact absurd hok (by simp)
  · exact absurd hok (by simp)
  · exact absurd hok (by simp)

/-- Other rows are not touched. -/
theorem system_foreign {w : Wy} {K : Nat → Nat → ℝ} {l l' : Local} {s s' : Sys}
    (hok : wyComputeSystem w K l s = .ok (l', s')) {r : Nat}
    (hr : ∀ c < w.nCells, 0 ≤ w.global c → r ≠ w.row c) :
    (∀ b, s'.K r b = s.K r b) ∧ s'.F r = s.F r := by
  obtain ⟨_, t, ht, rfl⟩ := system_parts hok
  rw [forcing_K, forcing_F]
  have hF : (∑ c' ∈ range w.nCells, if 0 ≤ w.global c' then (if r = w.row c' then l'.F c' else 0)
      else 0) = 0 := by
    refine sum_eq_zero fun c hc => ?_
    split
    · rename_i h
      exact if_neg (hr c (mem_range.1 hc) h)
    · rfl
  rw [hF, add_zero]
  refine forN_res _ (fun k => systemVertex w l'.A (w.vStart + k)) (fun _ (t : Sys) =>
    (∀ b, t.K r b = s.K r b) ∧ t.F r = s.F r) _ t ⟨fun _ => rfl, rfl⟩ ?_ ht
  rintro m hm t t' ⟨h1, h2⟩ hstep
  obtain ⟨C, D, rfl⟩ := vertex_inserts hstep
  have hin : ∀ j ∈ range (w.cells (w.vStart + m)).length, (w.cells (w.vStart + m)).getD j 0 < w.nCells := by
    intro j hj
    rw [getD_lt _ (mem_range.1 hj)]
    exact cells_lt (List.getElem_mem _)
  constructor
  · intro b
    rw [insert_K, h1, sum_eq_zero, add_zero]
    intro j hj
    split
    · rename_i h
      refine sum_eq_zero fun q _ => ?_
      split
      · rfl
      · rw [if_neg]
        rintro ⟨e, _⟩
        exact hr _ (hin j hj) h e
    · rfl
  · rw [insert_F, h2, sum_eq_zero, add_zero]
    intro j hj
    split
    · rename_i h
      exact if_neg (hr _ (hin j hj) h)
    · rfl

end

end TDy.Fe.Proofs
