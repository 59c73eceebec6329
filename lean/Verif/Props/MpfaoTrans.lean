import Verif.Proofs.MpfaoTrans
import Mathlib.LinearAlgebra.Matrix.ToLinearEquiv
import Mathlib.Tactic.IntervalCases
import Mathlib.Tactic.FieldSimp
import Mathlib.Tactic.NormNum
import Mathlib.Tactic.FinCases

/-! # Transmissibilities of a vertex: C46, C47, C92 -/

namespace TDy.Mpfao.Props

open TDy.Mpfao.Spec TDy.Mpfao.Proofs

theorem trans_some {v : Vtx} {T} (hT : trans v = some T) :
    (aMat v).det ≠ 0 ∧ T = transEntry v ((aMat v)⁻¹ * bMat v) := by
  unfold trans ainvB at hT
  by_cases h : (aMat v).det = 0
  · rw [if_pos h] at hT; simp at hT
  · rw [if_neg h] at hT; simp only [Option.map_some, Option.some.injEq] at hT
    exact ⟨h, hT.symm⟩

theorem solution {v : Vtx} (hd : (aMat v).det ≠ 0) (x : Fin (nSys v) → ℝ)
    (w : Fin (v.npcen + nDir v) → ℝ) :
    (aMat v).mulVec x = (bMat v).mulVec w ↔ x = ((aMat v)⁻¹ * bMat v).mulVec w := by
  have hu : IsUnit (aMat v).det := isUnit_iff_ne_zero.2 hd
  constructor
  · intro h
    rw [← Matrix.mulVec_mulVec, ← h, Matrix.mulVec_mulVec, Matrix.nonsing_inv_mul _ hu,
      Matrix.one_mulVec]
  · intro h
    rw [h, Matrix.mulVec_mulVec, ← Matrix.mul_assoc, Matrix.mul_nonsing_inv _ hu, Matrix.one_mul]

/-- **C47.**  Whatever the cell pressures, the boundary pressures and the face pressures that make
the one-sided fluxes of every internal face agree: the transmissibility row saved for a face gives
exactly that flux, on whichever side it is evaluated. -/
theorem C47_common_flux {v : Vtx} (wf : WellFormed v) {T} (hT : trans v = some T)
    (u pb p : Nat → ℝ) (hp : Balanced v u pb p) {r i f : Nat} (h : InRange v i f)
    (hb : (v.sub i).internal f = true ∨ v.dirichlet = true)
    (hr : RowOf v r ((v.sub i).face f)) :
    transTimes v T u pb r = oneSided (v.sub i) (u i) p f := by
  obtain ⟨hd, rfl⟩ := trans_some hT
  obtain ⟨h1, h2⟩ := solves_of_balanced wf p u pb hp
  refine transTimes_face wf _ u pb p hp (fun i f h => ?_) h hb hr
  rw [← (solution hd _ _).1 h1]
  exact h2 i f h

/-- **C47.**  Such face pressures exist for all data, and they are unique. -/
theorem C47_face_pressures {v : Vtx} (wf : WellFormed v) {T} (hT : trans v = some T)
    (u pb : Nat → ℝ) :
    ∃ p, Balanced v u pb p ∧
      ∀ p', Balanced v u pb p' → ∀ i f, InRange v i f →
        p' ((v.sub i).face f) = p ((v.sub i).face f) := by
  obtain ⟨hd, -⟩ := trans_some hT
  have hx := (solution hd _ (wvec v u pb)).2 rfl
  refine ⟨_, balanced_of_solves wf _ u pb hx, fun p' hp' i f h => ?_⟩
  obtain ⟨h1, h2⟩ := solves_of_balanced wf p' u pb hp'
  rw [toFace_eq wf _ h, ← h2 i f h, ← (solution hd _ _).1 h1]

/-- **C47.**  Every row the code saves is the row of some face of the vertex, and every face has a
row. -/
theorem C47_rows {v : Vtx} (wf : WellFormed v) :
    (∀ r, r < v.nFaces → ∃ i f, InRange v i f ∧ RowOf v r ((v.sub i).face f)) ∧
    ∀ i f, InRange v i f → ∃! r, RowOf v r ((v.sub i).face f) := by
  refine ⟨fun r hr => ?_, fun i f h => ?_⟩
  · obtain ⟨i, f, a, b, -⟩ := row_onto wf hr
    exact ⟨i, f, a, b⟩
  · refine ⟨posq v (3 * i + f), ⟨?_, vertexFaces_pos wf h⟩, fun r hr => row_eq wf h hr⟩
    have hc := countBnd_eq v
    rw [wf.nFaces_eq, nBnd_split wf, posq, q_div h.2, q_mod h.2]
    have l := wf.link_lt _ _ h
    cases hI : (v.sub i).internal f
    · have hb : isB v (3 * i + f) := by rw [isB, q_div h.2, q_mod h.2]; exact hI
      cases hU : (v.sub i).up f <;> simp only [Bool.false_eq_true, if_false, if_true]
      · have : Nat.count (isBD v) (3 * i + f) < (countBnd v).2 := by
          rw [hc]; exact Nat.count_strict_mono ⟨hb, by rw [q_div h.2, q_mod h.2]; exact hU⟩ (inR_q h)
        omega
      · have : Nat.count (isBU v) (3 * i + f) < (countBnd v).1 := by
          rw [hc]; exact Nat.count_strict_mono ⟨hb, by rw [q_div h.2, q_mod h.2]; exact hU⟩ (inR_q h)
        omega
    · have := l hI; simp only [if_true]; omega

/-- **C47.**  The code refuses a vertex exactly when the face pressures are not determined: some
non-zero face pressures are in balance with zero data. -/
theorem C47_refused_iff {v : Vtx} (wf : WellFormed v) :
    trans v = none ↔ ∃ p, Balanced v (fun _ => 0) (fun _ => 0) p ∧
      ∃ i f, InRange v i f ∧ p ((v.sub i).face f) ≠ 0 := by
  have hw : wvec v (fun _ => 0) (fun _ => 0) = 0 := by
    funext j; unfold wvec wval; simp
  constructor
  · intro h
    have hd : (aMat v).det = 0 := by
      by_contra hd
      unfold trans ainvB at h; rw [if_neg hd] at h; simp at h
    obtain ⟨x, hx0, hx⟩ := Matrix.exists_mulVec_eq_zero_iff.2 hd
    refine ⟨_, balanced_of_solves wf x (fun _ => 0) (fun _ => 0) (by rw [hx, hw, Matrix.mulVec_zero]), ?_⟩
    obtain ⟨c, hc⟩ := Function.ne_iff.1 hx0
    obtain ⟨i, f, hi, e⟩ := unk_onto wf c.2
    refine ⟨i, f, hi, ?_⟩
    rw [toFace_eq wf _ hi, e, full, dif_pos c.2]
    exact hc
  · rintro ⟨p, hp, i, f, hi, hne⟩
    cases hT : trans v with
    | none => rfl
    | some T =>
      exfalso
      obtain ⟨q, hq, hu⟩ := C47_face_pressures wf hT (fun _ => 0) (fun _ => 0)
      have h0 : Balanced v (fun _ => 0) (fun _ => 0) (fun _ => 0) := by
        refine ⟨fun _ _ _ _ _ _ _ _ => by simp [oneSided], fun _ _ _ _ => by simp [oneSided]⟩
      exact hne ((hu p hp i f hi).trans (hu _ h0 i f hi).symm)

/-- **C46.**  The rows of all internal faces, and for Dirichlet and seepage boundaries of all faces,
sum to zero: a constant pressure drives no flow. -/
theorem C46_constants {v : Vtx} (wf : WellFormed v) {T} (hT : trans v = some T) (c : ℝ) {r : Nat}
    (hr : r < v.nFaces) (hb : r < v.nIntFaces ∨ v.dirichlet = true) :
    ∑ j, T r j = 0 ∧ transTimes v T (fun _ => c) (fun _ => c) r = 0 := by
  have key : ∀ c : ℝ, transTimes v T (fun _ => c) (fun _ => c) r = 0 := by
    intro c
    obtain ⟨i, f, hi, hrow, hI⟩ := row_onto wf hr
    have hp : Balanced v (fun _ => c) (fun _ => c) (fun _ => c) :=
      ⟨fun _ _ _ _ _ _ _ _ => by simp [oneSided], fun _ _ _ _ => by simp [oneSided]⟩
    rw [C47_common_flux wf hT _ _ _ hp hi (hb.imp hI id) hrow]
    simp [oneSided]
  refine ⟨?_, key c⟩
  have := key 1
  simpa [transTimes] using this

/-! ### Uniform media -/

/-- `K g` -/
def mulK (K : Fin 3 → Fin 3 → ℝ) (g : Geo.P3) : Geo.P3 :=
  ⟨K 0 0 * g.x + K 0 1 * g.y + K 0 2 * g.z, K 1 0 * g.x + K 1 1 * g.y + K 1 2 * g.z,
    K 2 0 * g.x + K 2 1 * g.y + K 2 2 * g.z⟩

/-- The plane through the three face centroids of a subcell has the cell centroid and the vertex
strictly on different sides. -/
def Separates (fc : Nat → Geo.P3) (cen vtx : Geo.P3) (f : Fin 3 → Nat) : Prop :=
  Geo.dot (Geo.cross (Geo.join (fc (f 0)) (fc (f 1))) (Geo.join (fc (f 0)) (fc (f 2))))
      (Geo.join (fc (f 0)) cen) *
    Geo.dot (Geo.cross (Geo.join (fc (f 0)) (fc (f 1))) (Geo.join (fc (f 0)) (fc (f 2))))
      (Geo.join (fc (f 0)) vtx) < 0

/-- After the faces have been ordered, the tetrahedron of the cell centroid and the three face
centroids is negatively oriented. -/
theorem orient_neg (fc : Nat → Geo.P3) (cen vtx : Geo.P3) (f : Fin 3 → Nat)
    (h : Separates fc cen vtx f) :
    let o := orientFaces fc cen vtx f
    Geo.dot (Geo.cross (Geo.join cen (fc (o 0))) (Geo.join cen (fc (o 1))))
      (Geo.join cen (fc (o 2))) < 0 := by
  intro o
  unfold Separates at h
  by_cases hneg : Geo.dot (Geo.cross (Geo.join (fc (f 0)) (fc (f 1)))
      (Geo.join (fc (f 0)) (fc (f 2)))) (Geo.join vtx cen) < 0
  · have ho : o = ![f 0, f 2, f 1] := by simp only [o, orientFaces]; rw [if_pos hneg]
    rw [ho]
    simp only [Matrix.cons_val_zero, Matrix.cons_val_one, Matrix.cons_val]
    simp only [Geo.dot, Geo.cross, Geo.join] at h hneg ⊢
    rcases mul_neg_iff.1 h with ⟨h1, h2⟩ | ⟨h1, h2⟩ <;> linarith
  · have ho : o = f := by simp only [o, orientFaces]; rw [if_neg hneg]
    rw [ho]
    simp only [Geo.dot, Geo.cross, Geo.join] at h hneg ⊢
    rcases mul_neg_iff.1 h with ⟨h1, h2⟩ | ⟨h1, h2⟩ <;> linarith

/-- Across each subface of such a subcell a linear pressure drives the exact flux. -/
theorem oneSided_linear (K : Fin 3 → Fin 3 → ℝ) (area : Nat → ℝ) (normal fc : Nat → Geo.P3)
    (cen : Geo.P3) (s : Sub) (hG : ∀ ii jj : Fin 3, s.G ii jj
      = gMatrix K area normal fc cen (fun m => s.face m) ii jj)
    (ho : Geo.dot (Geo.cross (Geo.join cen (fc (s.face 0))) (Geo.join cen (fc (s.face 1))))
      (Geo.join cen (fc (s.face 2))) < 0) (g : Geo.P3) (b : ℝ) (p : Nat → ℝ)
    (hp : ∀ k, k < 3 → p (s.face k) = Geo.dot g (fc (s.face k)) + b) (f : Fin 3) :
    oneSided s (Geo.dot g cen + b) p f
      = area (s.face f) * Geo.dot (normal (s.face f)) (mulK K g) := by
  have g0 := hG f 0
  have g1 := hG f 1
  have g2 := hG f 2
  simp only [Fin.val_zero, Fin.val_one, Fin.val_two] at g0 g1 g2
  rw [oneSided, Finset.sum_range_succ, Finset.sum_range_succ, Finset.sum_range_succ,
    Finset.sum_range_zero, g0, g1, g2, hp 0 (by omega), hp 1 (by omega), hp 2 (by omega)]
  have hT : subcellT fc cen (fun m : Fin 3 => s.face m)
      = -Geo.dot (Geo.cross (Geo.join cen (fc (s.face 0))) (Geo.join cen (fc (s.face 1))))
      (Geo.join cen (fc (s.face 2))) := by
    unfold subcellT Geo.tetVolume
    simp only [Fin.val_zero, Fin.val_one, Fin.val_two]
    rw [abs_of_neg ho]; norm_num
  have hne : subcellT fc cen (fun m : Fin 3 => s.face m) ≠ 0 := by rw [hT]; linarith
  simp only [gMatrix, entryOfG, nuVector]
  simp only [Fin.val_zero, Fin.val_one, Fin.val_two]
  generalize hTT : subcellT fc cen (fun m : Fin 3 => s.face m) = TT at *
  generalize area (s.face f) = ar
  generalize normal (s.face f) = nn
  generalize fc (s.face 0) = f0 at *
  generalize fc (s.face 1) = f1 at *
  generalize fc (s.face 2) = f2 at *
  rw [show (1.0 : ℝ) = 1 by norm_num, show (0.0 : ℝ) = 0 by norm_num]
  field_simp
  rw [hT]
  simp only [Geo.dot, Geo.cross, Geo.join, Geo.normalTriangle, mulK]
  ring

/-- **C92.**  With one permeability tensor around the vertex, a linear pressure field drives through
every subface the exact flux: area times normal times `K ∇p`, whatever the shape of the cells. -/
theorem C92_linear_exact {v : Vtx} (wf : WellFormed v) {T} (hT : trans v = some T)
    (K : Fin 3 → Fin 3 → ℝ) (area : Nat → ℝ) (normal fc cen : Nat → Geo.P3) (vtx : Geo.P3)
    (order : Nat → Fin 3 → Nat)
    (hface : ∀ i, i < v.npcen → ∀ m : Fin 3,
      (v.sub i).face m = orientFaces fc (cen i) vtx (order i) m)
    (hsep : ∀ i, i < v.npcen → Separates fc (cen i) vtx (order i))
    (hG : ∀ i, i < v.npcen → ∀ ii jj : Fin 3, (v.sub i).G ii jj
      = gMatrix K area normal fc (cen i) (fun m => (v.sub i).face m) ii jj)
    (g : Geo.P3) (b : ℝ) (pb : Nat → ℝ)
    (hpb : ∀ i f, InRange v i f → (v.sub i).internal f = false → v.dirichlet = true ∧
      pb ((v.sub i).bnd f) = Geo.dot g (fc ((v.sub i).face f)) + b)
    {r x : Nat} (hr : RowOf v r x) :
    transTimes v T (fun i => Geo.dot g (cen i) + b) pb r
      = area x * Geo.dot (normal x) (mulK K g) := by
  have one : ∀ i f, InRange v i f →
      oneSided (v.sub i) (Geo.dot g (cen i) + b) (fun x => Geo.dot g (fc x) + b) f
        = area ((v.sub i).face f) * Geo.dot (normal ((v.sub i).face f)) (mulK K g) := by
    intro i f h
    refine oneSided_linear K area normal fc (cen i) (v.sub i) (hG i h.1) ?_ g b _
      (fun k _ => rfl) ⟨f, h.2⟩
    have := orient_neg fc (cen i) vtx (order i) (hsep i h.1)
    simp only [← hface i h.1] at this
    exact this
  have hp : Balanced v (fun i => Geo.dot g (cen i) + b) pb (fun x => Geo.dot g (fc x) + b) := by
    refine ⟨fun i f i' f' h h' _ e => ?_, fun i f h hb => ?_⟩
    · rw [one i f h, one i' f' h', e]
    · rw [if_pos (hpb i f h hb).1, (hpb i f h hb).2]
  obtain ⟨i, f, hi, hrow, hI⟩ := row_onto wf hr.1
  have hx : (v.sub i).face f = x := by rw [← hrow.2]; exact hr.2
  rw [C47_common_flux wf hT _ _ _ hp hi ?_ hrow, one i f hi, hx]
  cases hI' : (v.sub i).internal f
  · exact Or.inr (hpb i f hi hI').1
  · exact Or.inl rfl

/-! ### The theorems at work: a boundary vertex between two unit cubes -/

namespace Witness

/-- Face centroids: face 0 is shared by the cubes, faces 1 to 4 are on the boundary. -/
noncomputable def fc : Nat → Geo.P3
  | 0 => ⟨1, 1/2, 1/2⟩ | 1 => ⟨1/2, 0, 1/2⟩ | 2 => ⟨1/2, 1/2, 0⟩ | 3 => ⟨3/2, 0, 1/2⟩
  | _ => ⟨3/2, 1/2, 0⟩
noncomputable def cen : Nat → Geo.P3
  | 0 => ⟨1/2, 1/2, 1/2⟩ | _ => ⟨3/2, 1/2, 1/2⟩
def vtx : Geo.P3 := ⟨1, 0, 0⟩
def normal : Nat → Geo.P3
  | 0 => ⟨1, 0, 0⟩ | 1 => ⟨0, 1, 0⟩ | 2 => ⟨0, 0, -1⟩ | 3 => ⟨0, -1, 0⟩ | _ => ⟨0, 0, 1⟩
noncomputable def area (_ : Nat) : ℝ := 1/4
/-- An anisotropic tensor with an off-diagonal entry. -/
def K : Fin 3 → Fin 3 → ℝ := ![![2, 1, 0], ![1, 3, 0], ![0, 0, 1]]
def order : Nat → Fin 3 → Nat
  | 0, 0 => 0 | 0, 1 => 1 | 0, 2 => 2 | _ + 1, 0 => 0 | _ + 1, 1 => 3 | _ + 1, 2 => 4
def faces : Nat → Nat → Nat
  | 0, 0 => 0 | 0, 1 => 2 | 0, _ => 1 | _, 0 => 0 | _, 1 => 3 | _, _ => 4
def isUp : Nat → Nat → Bool
  | 0, 0 => true | 0, 1 => true | 0, _ => false | _, 0 => false | _, 1 => true | _, _ => false

noncomputable def v : Vtx where
  npcen := 2
  sub i := {
    G := fun f k => if h : f < 3 ∧ k < 3 then
      gMatrix K area normal fc (cen i) (fun m => faces i m) ⟨f, h.1⟩ ⟨k, h.2⟩ else 0
    internal := fun f => f == 0
    up := isUp i
    link := fun _ => 0
    bnd := fun f => faces i f - 1
    face := faces i }
  nFaces := 5
  nBnd := 4
  nIntFaces := 1
  ids0 := fun r => r
  dirichlet := true

theorem wf : WellFormed v where
  sub_inj := by
    have : ∀ i < 2, ∀ f < 3, ∀ f' < 3, faces i f = faces i f' → f = f' := by decide
    exact fun i f f' h h' e => this i h.1 f h.2 f' h'.2 e
  face_inj := by
    have : ∀ (i i' : Fin 2) (f f' : Fin 3), faces i f = faces i' f' →
        isUp i f = isUp i' f' → i.1 = i'.1 ∧ f.1 = f'.1 := by decide
    exact fun i f i' f' h h' => this ⟨i, h.1⟩ ⟨i', h'.1⟩ ⟨f, h.2⟩ ⟨f', h'.2⟩
  paired := by
    rintro i f ⟨h1, h2⟩ hI
    change i < 2 at h1
    have hf : f = 0 := by simpa [v] using hI
    subst hf
    interval_cases i
    · exact ⟨1, 0, ⟨by decide, by decide⟩, rfl, rfl⟩
    · exact ⟨0, 0, ⟨by decide, by decide⟩, rfl, rfl⟩
  bnd_once := by
    have : ∀ (i i' : Fin 2) (f f' : Fin 3), (f.1 == 0) = false →
        faces i f = faces i' f' → i.1 = i'.1 ∧ f.1 = f'.1 := by decide
    exact fun i f i' f' h h' => this ⟨i, h.1⟩ ⟨i', h'.1⟩ ⟨f, h.2⟩ ⟨f', h'.2⟩
  internal_face := by
    have : ∀ i < 2, ∀ f < 3, ∀ i' < 2, ∀ f' < 3, faces i f = faces i' f' →
        (f == 0) = (f' == 0) := by decide
    exact fun i f i' f' h h' => this i h.1 f h.2 i' h'.1 f' h'.2
  link_iff := by
    rintro i f i' f' ⟨h1, h2⟩ ⟨h3, h4⟩ hI hI'
    have hf : f = 0 := by simpa [v] using hI
    have hf' : f' = 0 := by simpa [v] using hI'
    subst hf hf'
    change i < 2 at h1; change i' < 2 at h3
    interval_cases i <;> interval_cases i' <;> simp [v, faces]
  link_lt := by intro i f _ _; exact Nat.zero_lt_one
  link_onto := by
    intro r hr
    change r < 1 at hr
    exact ⟨0, 0, ⟨by decide, by decide⟩, rfl, by show 0 = r; omega⟩
  nBnd_eq := by simp [v, Finset.sum_range_succ]
  nFaces_eq := rfl

/-- The vertex is not refused. -/
theorem solvable : ∃ T, trans v = some T := by
  cases h : trans v with
  | some T => exact ⟨T, rfl⟩
  | none =>
    exfalso
    obtain ⟨p, hp, i, f, ⟨h1, h2⟩, hne⟩ := (C47_refused_iff wf).1 h
    have hb : ∀ i f, InRange v i f → f ≠ 0 → p (faces i f) = 0 := by
      intro i f hr hf
      have := hp.boundary i f hr (by simpa [v] using hf)
      simpa [v] using this
    have h0 : p 0 = 0 := by
      have c := hp.continuous 0 0 1 0 ⟨by decide, by decide⟩ ⟨by decide, by decide⟩ rfl rfl
      have b1 := hb 0 1 ⟨by decide, by decide⟩ (by decide)
      have b2 := hb 0 2 ⟨by decide, by decide⟩ (by decide)
      have b3 := hb 1 1 ⟨by decide, by decide⟩ (by decide)
      have b4 := hb 1 2 ⟨by decide, by decide⟩ (by decide)
      simp only [faces] at b1 b2 b3 b4
      simp only [oneSided, Finset.sum_range_succ, Finset.sum_range_zero] at c
      simp [v, faces, b1, b2, b3, b4, gMatrix, entryOfG, nuVector, subcellT, Geo.tetVolume,
        Geo.normalTriangle, Geo.cross, Geo.join, Geo.dot, fc, cen, normal, area, K] at c
      norm_num at c
      linarith
    change i < 2 at h1
    by_cases hf : f = 0
    · subst hf; apply hne
      interval_cases i <;> exact h0
    · exact hne (hb i f ⟨h1, h2⟩ hf)

theorem separates : ∀ i, i < v.npcen → Separates fc (cen i) vtx (order i) := by
  intro i hi
  change i < 2 at hi
  interval_cases i <;>
    norm_num [Separates, Geo.dot, Geo.cross, Geo.join, fc, cen, vtx, order, Matrix.cons_val]

theorem oriented : ∀ i, i < v.npcen → ∀ m : Fin 3,
    (v.sub i).face m = orientFaces fc (cen i) vtx (order i) m := by
  intro i hi m
  change i < 2 at hi
  interval_cases i
  · have : orientFaces fc (cen 0) vtx (order 0) = ![0, 2, 1] := by
      norm_num [orientFaces, Geo.dot, Geo.cross, Geo.join, fc, cen, vtx, order, Matrix.cons_val]
    rw [this]; fin_cases m <;> rfl
  · have : orientFaces fc (cen 1) vtx (order 1) = ![0, 3, 4] := by
      norm_num [orientFaces, Geo.dot, Geo.cross, Geo.join, fc, cen, vtx, order, Matrix.cons_val]
      funext k; fin_cases k <;> rfl
    rw [this]; fin_cases m <;> rfl

end Witness

/-- All hypotheses of C46, C47 and C92 are met by this vertex: the pressure field `x + 2 y` drives
the flux `(1/4) (K ∇p)_x = 1` through the face between the cubes. -/
example : ∃ T r, trans Witness.v = some T ∧ RowOf Witness.v r 0 ∧
    ∑ j, T r j = 0 ∧
    transTimes Witness.v T (fun i => Geo.dot ⟨1, 2, 0⟩ (Witness.cen i) + 0)
      (fun b => Geo.dot ⟨1, 2, 0⟩ (Witness.fc (b + 1)) + 0) r = 1 := by
  obtain ⟨T, hT⟩ := Witness.solvable
  obtain ⟨r, hr, -⟩ := (C47_rows Witness.wf).2 0 0 ⟨by decide, by decide⟩
  replace hr : RowOf Witness.v r 0 := hr
  refine ⟨T, r, hT, hr, (C46_constants Witness.wf hT 0 hr.1 (Or.inr rfl)).1, ?_⟩
  rw [C92_linear_exact Witness.wf hT Witness.K Witness.area Witness.normal Witness.fc Witness.cen
    Witness.vtx Witness.order Witness.oriented Witness.separates
    (fun i _ ii jj => by simp [Witness.v]) ⟨1, 2, 0⟩ 0 _ ?_ hr]
  · simp [Witness.area, Geo.dot, Witness.normal, mulK, Witness.K]; norm_num
  · rintro i f ⟨h1, h2⟩ hb
    refine ⟨rfl, ?_⟩
    change i < 2 at h1
    interval_cases i <;> interval_cases f <;> first | exact absurd hb (by decide) | rfl

end TDy.Mpfao.Props
