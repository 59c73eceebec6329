import Verif.Spec.WyMoved
import Verif.Props.WyLinearWitness

/-!
# C211: the WY method when vertices are moved after setup
-/

namespace TDy.Fe.Props

open TDy.Fe TDy.Fe.Spec TDy.Fe.Proofs Finset Matrix
open TDy.Fvtpf (addAt addMat)

noncomputable section

/-! ### Areas cancel -/

/-- How the local unknown `i` at a vertex is scaled. -/
def areaRatio (w : Wy) (V : Nat → ℝ) (v i : Nat) : ℝ :=
  if (w.faces v).getD i 0 ∈ w.faces v then V ((w.faces v).getD i 0)/w.V ((w.faces v).getD i 0) else 1

theorem mem_faces {w : Wy} {v f : Nat} (h : f ∈ w.faces v) : w.fStart ≤ f ∧ f < w.fEnd := by
  unfold Wy.faces at h
  rw [List.mem_filter] at h
  simpa using h.2

theorem areaRatio_ne {w : Wy} {V : Nat → ℝ} (h : Areas w V) (v i : Nat) : areaRatio w V v i ≠ 0 := by
  unfold areaRatio
  split
  · rename_i hm
    have := h _ (mem_faces hm).1 (mem_faces hm).2
    exact div_ne_zero this.2 this.1
  · exact one_ne_zero

theorem lookup_getD {l : List Nat} {x i : Nat} (h : lookup l x = some i) : x ∈ l ∧ l.getD i 0 = x := by
  unfold lookup at h
  rw [List.findIdx?_eq_some_iff_getElem] at h
  obtain ⟨hi, hx, -⟩ := h
  have hx' : l[i] = x := by simpa using hx
  refine ⟨hx' ▸ List.getElem_mem hi, ?_⟩
  rw [List.getD_eq_getElem?_getD, List.getElem?_eq_getElem hi]
  exact hx'

theorem areaRatio_lookup {w : Wy} {V : Nat → ℝ} (h : Areas w V) {v x i : Nat}
    (hl : lookup (w.faces v) x = some i) : V x = areaRatio w V v i*w.V x := by
  obtain ⟨hm, hg⟩ := lookup_getD hl
  have := h _ (mem_faces hm).1 (mem_faces hm).2
  unfold areaRatio
  rw [hg, if_pos hm, div_mul_cancel₀ _ this.1]

def scaleM (σ : Nat → ℝ) (A : Nat → Nat → ℝ) : Nat → Nat → ℝ := fun i j => σ i*A i j*σ j

def scaleSys (σ : Nat → ℝ) (t : VSys) : VSys :=
  ⟨scaleM σ t.A, fun i j => σ i*t.B i j, fun i => σ i*t.G i⟩

def scaleVel (σ : Nat → ℝ) (t : VVel) : VVel := ⟨scaleM σ t.A, fun i => σ i*t.F i⟩

theorem seen_bind {α β : Type} (t : α → β) (r : Res α) (f : α → Res α) (g : β → Res β)
    (h : ∀ s, g (t s) = seen t (f s)) : (seen t r).bind g = seen t (r.bind f) := by
  cases r with
  | ok s => exact h s
  | err s => rfl
  | ub => rfl

theorem seen_forN {α β : Type} (t : α → β) (n : Nat) (f : Nat → α → Res α) (g : Nat → β → Res β)
    (h : ∀ i < n, ∀ s, g i (t s) = seen t (f i s)) (r : Res α) :
    forN n (fun i (r : Res β) => r.bind (g i)) (seen t r)
      = seen t (forN n (fun i (r : Res α) => r.bind (f i)) r) := by
  induction n with
  | zero => rfl
  | succ n ih =>
    show Res.bind (forN n (fun i (r : Res β) => r.bind (g i)) (seen t r)) (g n)
      = seen t (Res.bind (forN n (fun i (r : Res α) => r.bind (f i)) r) (f n))
    rw [ih fun i hi => h i (by omega)]
    exact seen_bind t _ _ _ (h n (by omega))

theorem seen_foldl {α β : Type} (t : α → β) (l : List Nat) (f : Nat → α → Res α) (g : Nat → β → Res β)
    (h : ∀ i s, g i (t s) = seen t (f i s)) (r : Res α) :
    l.foldl (fun (r : Res β) i => r.bind (g i)) (seen t r)
      = seen t (l.foldl (fun (r : Res α) i => r.bind (f i)) r) := by
  induction l generalizing r with
  | nil => rfl
  | cons a l ih =>
    show l.foldl _ ((seen t r).bind (g a)) = seen t (l.foldl _ (r.bind (f a)))
    rw [seen_bind t r (f a) (g a) (h a), ih]

theorem addRow_stale {w : Wy} {V : Nat → ℝ} (h : Areas w V) (X N : Nat → Nat → ℝ)
    (Al : Nat → Nat → Nat → ℝ) (v c q i lr : Nat) (hr : lookup (w.faces v) (w.face c q i) = some lr)
    (A : Nat → Nat → ℝ) :
    addRow (stale w V X N) Al (w.faces v) c q i lr (scaleM (areaRatio w V v) A)
      = seen (scaleM (areaRatio w V v)) (addRow w Al (w.faces v) c q i lr A) := by
  unfold addRow
  refine seen_forN (scaleM (areaRatio w V v)) w.dim _ _ (fun j _ A => ?_) (.ok A)
  show (match lookup (w.faces v) (w.face c q j) with
    | none => Res.err (scaleM (areaRatio w V v) A)
    | some lc => .ok (addMat (scaleM (areaRatio w V v) A) lr lc (Al c q (i*w.dim + j)*w.sign c q i*w.sign c q j
        *V (w.face c q i)*V (w.face c q j)))) = seen _ (match lookup (w.faces v) (w.face c q j) with
    | none => .err A
    | some lc => .ok (addMat A lr lc (Al c q (i*w.dim + j)*w.sign c q i*w.sign c q j
        *w.V (w.face c q i)*w.V (w.face c q j))))
  cases hc : lookup (w.faces v) (w.face c q j) with
  | none => rfl
  | some lc =>
    dsimp only [seen]
    congr 1
    funext a b
    rw [areaRatio_lookup h hr, areaRatio_lookup h hc]
    unfold scaleM addMat wr
    split
    · rename_i ha
      subst ha
      dsimp only
      split
      · rename_i hb
        subst hb
        ring
      · rfl
    · rfl

theorem systemRow_stale {w : Wy} {V : Nat → ℝ} (h : Areas w V) (X N : Nat → Nat → ℝ)
    (Al : Nat → Nat → Nat → ℝ) (v c q i : Nat) (s : VSys) :
    systemRow (stale w V X N) Al v c q i (scaleSys (areaRatio w V v) s)
      = seen (scaleSys (areaRatio w V v)) (systemRow w Al v c q i s) := by
  unfold systemRow
  show (match lookup (w.faces v) (w.face c q i) with
    | none => _
    | some lr => match lookup (w.cells v) c with
      | none => _
      | some lc => _) = _
  cases hr : lookup (w.faces v) (w.face c q i) with
  | none => rfl
  | some lr =>
    dsimp only
    cases hc : lookup (w.cells v) c with
    | none => rfl
    | some lc =>
      dsimp only
      have hA := addRow_stale h X N Al v c q i lr hr s.A
      have hV := areaRatio_lookup h hr
      have hB : addMat (scaleSys (areaRatio w V v) s).B lr lc (wgt w*w.sign c q i*V (w.face c q i))
          = fun a b => areaRatio w V v a*addMat s.B lr lc (wgt w*w.sign c q i*w.V (w.face c q i)) a b := by
        funext a b
        rw [hV]
        unfold scaleSys addMat wr
        dsimp only
        split
        · rename_i ha
          subst ha
          dsimp only
          split <;> ring
        · rfl
      have hG : (if w.bc (w.face c q i) && w.hasPressure then
          wr (scaleSys (areaRatio w V v) s).G lr
            (wgt w*w.sign c q i*w.pb (w.face c q i)*V (w.face c q i)) else (scaleSys (areaRatio w V v) s).G)
          = fun a => areaRatio w V v a*(if w.bc (w.face c q i) && w.hasPressure then
          wr s.G lr (wgt w*w.sign c q i*w.pb (w.face c q i)*w.V (w.face c q i)) else s.G) a := by
        funext a
        rw [hV]
        unfold scaleSys wr
        dsimp only
        split
        · dsimp only
          split
          · rename_i ha
            subst ha
            ring
          · rfl
        · rfl
      rw [show (scaleSys (areaRatio w V v) s).A = scaleM (areaRatio w V v) s.A from rfl]
      change (match addRow (stale w V X N) Al (w.faces v) c q i lr (scaleM (areaRatio w V v) s.A) with
        | .ok A => Res.ok (⟨A, addMat (scaleSys (areaRatio w V v) s).B lr lc (wgt w*w.sign c q i*V (w.face c q i)),
          if w.bc (w.face c q i) && w.hasPressure then
          wr (scaleSys (areaRatio w V v) s).G lr
            (wgt w*w.sign c q i*w.pb (w.face c q i)*V (w.face c q i)) else (scaleSys (areaRatio w V v) s).G⟩ : VSys)
        | .err A => Res.err ⟨A, addMat (scaleSys (areaRatio w V v) s).B lr lc (wgt w*w.sign c q i*V (w.face c q i)),
          if w.bc (w.face c q i) && w.hasPressure then
          wr (scaleSys (areaRatio w V v) s).G lr
            (wgt w*w.sign c q i*w.pb (w.face c q i)*V (w.face c q i)) else (scaleSys (areaRatio w V v) s).G⟩
        | .ub => Res.ub) = _
      rw [hA, hB, hG]
      cases addRow w Al (w.faces v) c q i lr s.A <;> rfl

theorem velocityRow_stale {w : Wy} {V : Nat → ℝ} (h : Areas w V) (X N : Nat → Nat → ℝ)
    (Al : Nat → Nat → Nat → ℝ) (u : Nat → ℝ) (v c q i : Nat) (s : VVel) :
    velocityRow (stale w V X N) Al u v c q i (scaleVel (areaRatio w V v) s)
      = seen (scaleVel (areaRatio w V v)) (velocityRow w Al u v c q i s) := by
  unfold velocityRow
  show (match lookup (w.faces v) (w.face c q i) with
    | none => _
    | some lr => match lookup (w.cells v) c with
      | none => _
      | some lc => _) = _
  cases hr : lookup (w.faces v) (w.face c q i) with
  | none => rfl
  | some lr =>
    dsimp only
    cases hc : lookup (w.cells v) c with
    | none => rfl
    | some lc =>
      dsimp only
      have hA := addRow_stale h X N Al v c q i lr hr s.A
      have hV := areaRatio_lookup h hr
      have hF : (if w.bc (w.face c q i) && w.hasPressure then
          addAt (addAt (scaleVel (areaRatio w V v) s).F lr (wgt w*w.sign c q i*u c*V (w.face c q i))) lr
            (-wgt w*w.sign c q i*w.pb (w.face c q i)*V (w.face c q i))
          else addAt (scaleVel (areaRatio w V v) s).F lr (wgt w*w.sign c q i*u c*V (w.face c q i)))
          = fun a => areaRatio w V v a*(if w.bc (w.face c q i) && w.hasPressure then
          addAt (addAt s.F lr (wgt w*w.sign c q i*u c*w.V (w.face c q i))) lr
            (-wgt w*w.sign c q i*w.pb (w.face c q i)*w.V (w.face c q i))
          else addAt s.F lr (wgt w*w.sign c q i*u c*w.V (w.face c q i))) a := by
        funext a
        rw [hV]
        unfold scaleVel addAt wr
        dsimp only
        split
        · by_cases ha : a = lr
          · subst ha
            simp only [if_true]
            ring
          · simp only [if_neg ha]
        · by_cases ha : a = lr
          · subst ha
            simp only [if_true]
            ring
          · simp only [if_neg ha]
      change (match addRow (stale w V X N) Al (w.faces v) c q i lr (scaleM (areaRatio w V v) s.A) with
        | .ok A => Res.ok (⟨A, if w.bc (w.face c q i) && w.hasPressure then
          addAt (addAt (scaleVel (areaRatio w V v) s).F lr (wgt w*w.sign c q i*u c*V (w.face c q i))) lr
            (-wgt w*w.sign c q i*w.pb (w.face c q i)*V (w.face c q i))
          else addAt (scaleVel (areaRatio w V v) s).F lr (wgt w*w.sign c q i*u c*V (w.face c q i))⟩ : VVel)
        | .err A => Res.err ⟨A, if w.bc (w.face c q i) && w.hasPressure then
          addAt (addAt (scaleVel (areaRatio w V v) s).F lr (wgt w*w.sign c q i*u c*V (w.face c q i))) lr
            (-wgt w*w.sign c q i*w.pb (w.face c q i)*V (w.face c q i))
          else addAt (scaleVel (areaRatio w V v) s).F lr (wgt w*w.sign c q i*u c*V (w.face c q i))⟩
        | .ub => Res.ub) = _
      rw [hA, hF]
      cases addRow w Al (w.faces v) c q i lr s.A <;> rfl

theorem vertexSystem_stale {w : Wy} {V : Nat → ℝ} (h : Areas w V) (X N : Nat → Nat → ℝ)
    (Al : Nat → Nat → Nat → ℝ) (v : Nat) :
    vertexSystem (stale w V X N) Al v = seen (scaleSys (areaRatio w V v)) (vertexSystem w Al v) := by
  have h0 : (⟨fun _ _ => 0, fun _ _ => 0, fun _ => 0⟩ : VSys)
      = scaleSys (areaRatio w V v) ⟨fun _ _ => 0, fun _ _ => 0, fun _ => 0⟩ := by
    unfold scaleSys scaleM
    simp
  unfold vertexSystem
  by_cases ht : tooLarge w v
  · rw [if_pos ht, if_pos (show tooLarge (stale w V X N) v from ht)]
    show (if w.debug then _ else _) = _
    split
    · exact congrArg Res.err h0
    · rfl
  · rw [if_neg ht, if_neg (show ¬ tooLarge (stale w V X N) v from ht)]
    have := seen_foldl (scaleSys (areaRatio w V v)) (w.cells v) (fun c => systemCell w Al v c)
      (fun c => systemCell (stale w V X N) Al v c) (fun c s => by
        unfold systemCell
        show (match corner w c v with
          | none => _
          | some q => _) = _
        cases corner w c v with
        | none => rfl
        | some q => exact seen_forN _ w.dim _ _ (fun i _ s => systemRow_stale h X N Al v c q i s) (.ok s))
      (.ok ⟨fun _ _ => 0, fun _ _ => 0, fun _ => 0⟩)
    refine Eq.trans ?_ this
    exact congrArg (fun z => (w.cells v).foldl (fun (r : Res VSys) c => r.bind (systemCell (stale w V X N) Al v c))
      (Res.ok z)) h0

theorem vertexVelocity_stale {w : Wy} {V : Nat → ℝ} (h : Areas w V) (X N : Nat → Nat → ℝ)
    (Al : Nat → Nat → Nat → ℝ) (u : Nat → ℝ) (v : Nat) :
    vertexVelocity (stale w V X N) Al u v = seen (scaleVel (areaRatio w V v)) (vertexVelocity w Al u v) := by
  have h0 : (⟨fun _ _ => 0, fun _ => 0⟩ : VVel)
      = scaleVel (areaRatio w V v) ⟨fun _ _ => 0, fun _ => 0⟩ := by
    unfold scaleVel scaleM
    simp
  unfold vertexVelocity
  show (if 144 < (w.faces v).length*(w.faces v).length then _ else _) = _
  split
  · rfl
  · have := seen_foldl (scaleVel (areaRatio w V v)) (w.cells v) (fun c => velocityCell w Al u v c)
      (fun c => velocityCell (stale w V X N) Al u v c) (fun c s => by
        unfold velocityCell
        show (match corner w c v with
          | none => _
          | some q => _) = _
        cases corner w c v with
        | none => rfl
        | some q => exact seen_forN _ w.dim _ _ (fun i _ s => velocityRow_stale h X N Al u v c q i s) (.ok s))
      (.ok ⟨fun _ _ => 0, fun _ => 0⟩)
    refine Eq.trans ?_ this
    exact congrArg (fun z => (w.cells v).foldl (fun (r : Res VVel) c => r.bind (velocityCell (stale w V X N) Al u v c))
      (Res.ok z)) h0

/-! ### The stencil and the velocities -/

theorem mat_scale (n : Nat) (σ : Nat → ℝ) (A : Nat → Nat → ℝ) :
    mat n n (scaleM σ A) = diagonal (fun i : Fin n => σ i)*mat n n A*diagonal (fun i : Fin n => σ i) := by
  ext i j
  rw [mul_diagonal, diagonal_mul]
  rfl

theorem mat_scale_row (n m : Nat) (σ : Nat → ℝ) (B : Nat → Nat → ℝ) :
    mat n m (fun i j => σ i*B i j) = diagonal (fun i : Fin n => σ i)*mat n m B := by
  ext i j
  rw [diagonal_mul]
  rfl

theorem vec_scale (n : Nat) (σ : Nat → ℝ) (G : Nat → ℝ) :
    vec n (fun i => σ i*G i) = (diagonal (fun i : Fin n => σ i)).mulVec (vec n G) := by
  ext i
  rw [mulVec_diagonal]
  rfl

theorem det_scale {n : Nat} {σ : Nat → ℝ} (hσ : ∀ i, σ i ≠ 0) (A : Nat → Nat → ℝ) :
    (mat n n (scaleM σ A)).det = 0 ↔ (mat n n A).det = 0 := by
  rw [mat_scale, det_mul, det_mul, det_diagonal]
  have : ∏ i : Fin n, σ i ≠ 0 := prod_ne_zero_iff.2 fun i _ => hσ i
  simp [this]

theorem isUnit_diag {n : Nat} {σ : Nat → ℝ} (hσ : ∀ i, σ i ≠ 0) :
    IsUnit (diagonal fun i : Fin n => σ i).det := by
  rw [det_diagonal]
  exact Ne.isUnit (prod_ne_zero_iff.2 fun (i : Fin n) _ => hσ i)

theorem formStencil_scale (q r : Nat) {σ : Nat → ℝ} (hσ : ∀ i, σ i ≠ 0) (s : VSys) :
    formStencil q r (scaleSys σ s) = formStencil q r s := by
  unfold formStencil scaleSys
  dsimp only
  by_cases hd : (mat q q s.A).det = 0
  · rw [if_pos hd, if_pos ((det_scale hσ _).2 hd)]
  · rw [if_neg hd, if_neg (fun h => hd ((det_scale hσ _).1 h))]
    have hS := isUnit_diag (n := q) hσ
    rw [mat_scale, mat_scale_row, vec_scale, Matrix.mul_inv_rev, Matrix.mul_inv_rev, transpose_mul,
      diagonal_transpose]
    set S := diagonal fun i : Fin q => σ i
    have e1 : (mat q r s.B).transpose*S*(S⁻¹*((mat q q s.A)⁻¹*S⁻¹))
        = (mat q r s.B).transpose*(mat q q s.A)⁻¹*S⁻¹ := by
      rw [Matrix.mul_assoc, ← Matrix.mul_assoc S, Matrix.mul_nonsing_inv S hS, Matrix.one_mul, Matrix.mul_assoc]
    rw [e1]
    congr 2
    · rw [Matrix.mul_assoc, ← Matrix.mul_assoc S⁻¹, Matrix.nonsing_inv_mul S hS, Matrix.one_mul]
    · rw [Matrix.mulVec_mulVec, Matrix.mul_assoc, Matrix.nonsing_inv_mul S hS, Matrix.mul_one]

theorem systemVertex_stale {w : Wy} {V : Nat → ℝ} (h : Areas w V) (X N : Nat → Nat → ℝ)
    (Al : Nat → Nat → Nat → ℝ) (v : Nat) (s : Sys) :
    systemVertex (stale w V X N) Al v s = systemVertex w Al v s := by
  unfold systemVertex
  rw [vertexSystem_stale h]
  cases vertexSystem w Al v with
  | ok t =>
    have e : formStencil ((stale w V X N).faces v).length ((stale w V X N).cells v).length
        (scaleSys (areaRatio w V v) t) = formStencil (w.faces v).length (w.cells v).length t :=
      formStencil_scale _ _ (areaRatio_ne h v) t
    dsimp only [seen]
    rw [e]
    cases formStencil (w.faces v).length (w.cells v).length t <;> rfl
  | err t => rfl
  | ub => rfl

/-- **C211** (partial: the boundary pressures are those of the moved mesh).  The system of the moved mesh
comes out right although the areas in it are old: they cancel.  Nothing else of what setup stored is used,
but permeabilities and boundary pressures. -/
theorem C211_system_of_moved_mesh_partial (w : Wy) (V : Nat → ℝ) (X N : Nat → Nat → ℝ) (h : Areas w V)
    (K : Nat → Nat → ℝ) (l : Local) (s : Sys) :
    wyComputeSystem (stale w V X N) K l s = wyComputeSystem w K l s := by
  unfold wyComputeSystem
  have hl : localElementCompute (stale w V X N) K l = localElementCompute w K l := rfl
  rw [hl]
  cases localElementCompute w K l with
  | ok l =>
    dsimp only
    have e : forN ((stale w V X N).vEnd - (stale w V X N).vStart)
        (fun k (r : Res Sys) => r.bind (systemVertex (stale w V X N) l.A ((stale w V X N).vStart + k))) (.ok s)
        = forN (w.vEnd - w.vStart) (fun k (r : Res Sys) => r.bind (systemVertex w l.A (w.vStart + k))) (.ok s) := by
      have e2 : ∀ k, systemVertex (stale w V X N) l.A ((stale w V X N).vStart + k)
          = systemVertex w l.A (w.vStart + k) := fun k => funext fun s => systemVertex_stale h X N l.A _ s
      simp only [e2]
      rfl
    rw [e]
    generalize forN (w.vEnd - w.vStart) (fun k (r : Res Sys) => r.bind (systemVertex w l.A (w.vStart + k)))
      (.ok s) = r
    cases r <;> rfl
  | err l => rfl
  | ub => rfl

theorem recover_scale (q : Nat) {σ : Nat → ℝ} (hσ : ∀ i, σ i ≠ 0) (s : VVel) (x : Fin q → ℝ)
    (hx : recoverVelocity q s = .ok x) :
    recoverVelocity q (scaleVel σ s) = .ok fun i => x i/σ i := by
  unfold recoverVelocity at hx ⊢
  dsimp only [scaleVel] at hx ⊢
  by_cases hd : (mat q q s.A).det = 0
  · rw [if_pos hd] at hx
    cases hx
  · rw [if_neg hd] at hx
    rw [if_neg (fun h => hd ((det_scale hσ _).1 h))]
    injection hx with hx
    have hS := isUnit_diag (n := q) hσ
    congr 1
    have hdet : IsUnit (diagonal (fun i : Fin q => σ i)*mat q q s.A*diagonal fun i : Fin q => σ i).det := by
      rw [← mat_scale]
      exact (Ne.isUnit fun h => hd ((det_scale hσ _).1 h))
    rw [mat_scale, vec_scale]
    have key : (diagonal (fun i : Fin q => σ i)*mat q q s.A*diagonal fun i : Fin q => σ i).mulVec
        (fun i => x i/σ i) = (diagonal fun i : Fin q => σ i).mulVec (vec q s.F) := by
      rw [← Matrix.mulVec_mulVec, ← Matrix.mulVec_mulVec]
      have e : (diagonal fun i : Fin q => σ i).mulVec (fun i => x i/σ i) = x := by
        ext i
        rw [mulVec_diagonal, mul_div_cancel₀ _ (hσ i)]
      rw [e, ← hx, Matrix.mulVec_mulVec (vec q s.F) (mat q q s.A),
        Matrix.mul_nonsing_inv _ (Ne.isUnit hd), Matrix.one_mulVec]
    rw [← key, Matrix.mulVec_mulVec, Matrix.nonsing_inv_mul _ hdet, Matrix.one_mulVec]

theorem store_stale {w : Wy} {V : Nat → ℝ} (h : Areas w V) (X N : Nat → Nat → ℝ) (v : Nat)
    (y y' : Nat → ℝ) (hy : ∀ i < (w.faces v).length, y' i = y i/areaRatio w V v i) (vel : Nat → Nat → ℝ) :
    storeVelocity (stale w V X N) v y' (rescaled w w.V V vel)
      = rescaled w w.V V (storeVelocity w v y vel) := by
  unfold storeVelocity
  show forN (w.faces v).length _ _ = _
  suffices ∀ n ≤ (w.faces v).length,
      forN n (fun q vel =>
        match (List.range w.nfv).find? fun k => v == w.fmap ((w.faces v).getD q 0) k with
        | none => vel
        | some k => wr vel ((w.faces v).getD q 0) (wr (vel ((w.faces v).getD q 0)) k (y' q)))
        (rescaled w w.V V vel)
      = rescaled w w.V V (forN n (fun q vel =>
        match (List.range w.nfv).find? fun k => v == w.fmap ((w.faces v).getD q 0) k with
        | none => vel
        | some k => wr vel ((w.faces v).getD q 0) (wr (vel ((w.faces v).getD q 0)) k (y q))) vel) from
    this _ le_rfl
  intro n hn
  induction n with
  | zero => rfl
  | succ n ih =>
    simp only [forN]
    rw [ih (by omega)]
    cases (List.range w.nfv).find? fun k => v == w.fmap ((w.faces v).getD n 0) k with
    | none => rfl
    | some k =>
      dsimp only
      generalize forN n _ vel = t
      have hm : (w.faces v).getD n 0 ∈ w.faces v := by
        rw [List.getD_eq_getElem?_getD, List.getElem?_eq_getElem (by omega)]
        exact List.getElem_mem _
      have hy' := hy n (by omega)
      have hin := mem_faces hm
      have hV := h _ hin.1 hin.2
      unfold areaRatio at hy'
      rw [if_pos hm] at hy'
      generalize (w.faces v).getD n 0 = f at *
      funext a b
      by_cases ha : a = f
      · subst ha
        unfold rescaled
        simp only [wr_same]
        by_cases hb : b = k
        · subst hb
          simp only [wr_same, if_pos hin]
          rw [hy']
          field_simp
        · rw [wr_other _ _ hb, wr_other _ _ hb]
      · rw [wr_other _ _ ha]
        unfold rescaled
        rw [wr_other _ _ ha]

theorem velocityVertex_stale {w : Wy} {V : Nat → ℝ} (h : Areas w V) (X N : Nat → Nat → ℝ)
    (Al : Nat → Nat → Nat → ℝ) (u : Nat → ℝ) (v : Nat) (vel : Nat → Nat → ℝ) :
    velocityVertex (stale w V X N) Al u v (rescaled w w.V V vel)
      = seen (rescaled w w.V V) (velocityVertex w Al u v vel) := by
  unfold velocityVertex
  rw [vertexVelocity_stale h]
  cases vertexVelocity w Al u v with
  | ok t =>
    dsimp only [seen]
    cases hr : recoverVelocity (w.faces v).length t with
    | ok x =>
      have e : recoverVelocity ((stale w V X N).faces v).length (scaleVel (areaRatio w V v) t)
          = .ok fun i => x i/areaRatio w V v i := recover_scale _ (areaRatio_ne h v) t x hr
      rw [e]
      refine congrArg Res.ok (store_stale h X N v _ _ (fun i hi => ?_) vel)
      unfold entry1
      have e1 : (if h : i < (w.faces v).length then x ⟨i, h⟩ else 0) = x ⟨i, hi⟩ := by rw [dif_pos hi]
      rw [e1]
      exact dif_pos hi
    | err x =>
      have : recoverVelocity ((stale w V X N).faces v).length (scaleVel (areaRatio w V v) t)
          = .err (vec (w.faces v).length (scaleVel (areaRatio w V v) t).F) := by
        unfold recoverVelocity at hr ⊢
        dsimp only at hr ⊢
        by_cases hd : (mat (w.faces v).length (w.faces v).length t.A).det = 0
        · exact if_pos ((det_scale (areaRatio_ne h v) _).2 hd)
        · rw [if_neg hd] at hr
          cases hr
      rw [this]
    | ub =>
      exfalso
      unfold recoverVelocity at hr
      dsimp only at hr
      split at hr <;> cases hr
  | err t => rfl
  | ub => rfl

theorem recover_stale {w : Wy} {V : Nat → ℝ} (h : Areas w V) (X N : Nat → Nat → ℝ)
    (Al : Nat → Nat → Nat → ℝ) (u : Nat → ℝ) (vel : Nat → Nat → ℝ) :
    wyRecoverVelocity (stale w V X N) Al u (rescaled w w.V V vel)
      = seen (rescaled w w.V V) (wyRecoverVelocity w Al u vel) := by
  unfold wyRecoverVelocity
  exact seen_forN (rescaled w w.V V) (w.vEnd - w.vStart) _ _
    (fun k _ vel => velocityVertex_stale h X N Al u (w.vStart + k) vel) (.ok vel)

/-- What is stored at a vertex does not depend on what was stored before. -/
theorem vertex_stored {w : Wy} {Al : Nat → Nat → Nat → ℝ} {u : Nat → ℝ} {v : Nat} {t t' : Nat → Nat → ℝ}
    (h : velocityVertex w Al u v t = .ok t') :
    ∃ y, ∀ t, velocityVertex w Al u v t = .ok (storeVelocity w v y t) := by
  unfold velocityVertex at h ⊢
  cases hx : vertexVelocity w Al u v with
  | ok x =>
    rw [hx] at h
    dsimp only at h ⊢
    cases hy : recoverVelocity (w.faces v).length x with
    | ok y => exact ⟨entry1 y, fun t => rfl⟩
    | err y => rw [hy] at h; cases h
    | ub => rw [hy] at h; cases h
  | err x => rw [hx] at h; cases h
  | ub => rw [hx] at h; cases h

theorem recover_same {w : Wy} {pl : Nat → Nat → Nat}
    (hn : ∀ v, w.vStart ≤ v → v < w.vEnd → (w.faces v).Nodup)
    (hpl : ∀ v, w.vStart ≤ v → v < w.vEnd → ∀ f ∈ w.faces v, Place w f v (pl f v))
    {Al : Nat → Nat → Nat → ℝ} {u : Nat → ℝ} {s t s' : Nat → Nat → ℝ}
    (hs : wyRecoverVelocity w Al u s = .ok s') :
    ∃ t', wyRecoverVelocity w Al u t = .ok t' ∧
      ∀ v, w.vStart ≤ v → v < w.vEnd → ∀ f ∈ w.faces v, t' f (pl f v) = s' f (pl f v) := by
  unfold wyRecoverVelocity at hs ⊢
  have key : ∀ n ≤ w.vEnd - w.vStart, ∀ s',
      forN n (fun k (r : Res (Nat → Nat → ℝ)) => r.bind (velocityVertex w Al u (w.vStart + k))) (.ok s) = .ok s' →
      ∃ t', forN n (fun k (r : Res (Nat → Nat → ℝ)) => r.bind (velocityVertex w Al u (w.vStart + k))) (.ok t)
        = .ok t' ∧ ∀ k < n, ∀ f ∈ w.faces (w.vStart + k),
          t' f (pl f (w.vStart + k)) = s' f (pl f (w.vStart + k)) := by
    intro n
    induction n with
    | zero => intro _ s' _; exact ⟨t, rfl, by omega⟩
    | succ n ih =>
      intro hn' s' hs'
      simp only [forN] at hs' ⊢
      cases ha : forN n (fun k (r : Res (Nat → Nat → ℝ)) => r.bind (velocityVertex w Al u (w.vStart + k)))
          (.ok s) with
      | ok a =>
        obtain ⟨b, hb, hab⟩ := ih (by omega) a ha
        rw [ha] at hs'
        rw [hb]
        have hs'' : velocityVertex w Al u (w.vStart + n) a = .ok s' := hs'
        obtain ⟨y, hy⟩ := vertex_stored hs''
        rw [hy a] at hs''
        injection hs'' with hs''
        subst hs''
        refine ⟨_, hy b, fun k hk f hf => ?_⟩
        by_cases hkn : k = n
        · subst hkn
          rw [store_same (hn _ (by omega) (by omega)) y b hf (hpl _ (by omega) (by omega) f hf),
            store_same (hn _ (by omega) (by omega)) y a hf (hpl _ (by omega) (by omega) f hf)]
        · have hne : w.fmap f (pl f (w.vStart + k)) ≠ w.vStart + n := by
            rw [(hpl (w.vStart + k) (by omega) (by omega) f hf).2.1]
            omega
          rw [store_other w _ y b hne, store_other w _ y a hne]
          exact hab k (by omega) f hf
      | err a => rw [ha] at hs'; cases hs'
      | ub => rw [ha] at hs'; cases hs'
  obtain ⟨t', ht, h⟩ := key _ le_rfl s' hs
  refine ⟨t', ht, fun v h1 h2 f hf => ?_⟩
  have := h (v - w.vStart) (by omega)
  rw [Nat.add_sub_cancel' h1] at this
  exact this f hf

theorem rescaled_back {w : Wy} {V : Nat → ℝ} (h : Areas w V) (vel : Nat → Nat → ℝ) :
    rescaled w w.V V (rescaled w V w.V vel) = vel := by
  funext f k
  unfold rescaled
  by_cases hf : w.fStart ≤ f ∧ f < w.fEnd
  · have := h f hf.1 hf.2
    have h1 := this.1
    have h2 := this.2
    simp only [if_pos hf]
    field_simp
  · simp only [if_neg hf]

/-- **C211** Velocities are recovered with the old areas: those on the moved mesh (`a`) times the new area
of the face over the old. -/
theorem C211_velocities_of_moved_mesh (w : Wy) (V : Nat → ℝ) (X N : Nat → Nat → ℝ) (h : Areas w V)
    (pl : Nat → Nat → Nat) (hn : ∀ v, w.vStart ≤ v → v < w.vEnd → (w.faces v).Nodup)
    (hpl : ∀ v, w.vStart ≤ v → v < w.vEnd → ∀ f ∈ w.faces v, Place w f v (pl f v))
    (Al : Nat → Nat → Nat → ℝ) (u : Nat → ℝ) (s a : Nat → Nat → ℝ)
    (ha : wyRecoverVelocity w Al u s = .ok a) (t : Nat → Nat → ℝ) :
    ∃ b, wyRecoverVelocity (stale w V X N) Al u t = .ok b ∧
      ∀ v, w.vStart ≤ v → v < w.vEnd → ∀ f ∈ w.faces v, V f*b f (pl f v) = w.V f*a f (pl f v) := by
  obtain ⟨a', ha', hsame⟩ := recover_same hn hpl (t := rescaled w V w.V t) ha
  have hb := recover_stale h X N Al u (rescaled w V w.V t)
  rw [rescaled_back h, ha'] at hb
  refine ⟨_, hb, fun v h1 h2 f hf => ?_⟩
  have hin := mem_faces hf
  have hV := h f hin.1 hin.2
  unfold rescaled
  rw [if_pos hin, hsame v h1 h2 f hf, mul_div_cancel₀ _ hV.2]

/-- **C211** (violated) Wherever the area of a face changed and water flows, the velocity is wrong. -/
theorem C211_velocities_violated (w : Wy) (V : Nat → ℝ) (X N : Nat → Nat → ℝ) (h : Areas w V)
    (pl : Nat → Nat → Nat) (hn : ∀ v, w.vStart ≤ v → v < w.vEnd → (w.faces v).Nodup)
    (hpl : ∀ v, w.vStart ≤ v → v < w.vEnd → ∀ f ∈ w.faces v, Place w f v (pl f v))
    (Al : Nat → Nat → Nat → ℝ) (u : Nat → ℝ) (s a t b : Nat → Nat → ℝ)
    (ha : wyRecoverVelocity w Al u s = .ok a) (hb : wyRecoverVelocity (stale w V X N) Al u t = .ok b)
    (v f : Nat) (h1 : w.vStart ≤ v) (h2 : v < w.vEnd) (hf : f ∈ w.faces v) (hV : V f ≠ w.V f)
    (hflow : a f (pl f v) ≠ 0) : b f (pl f v) ≠ a f (pl f v) := by
  obtain ⟨b', hb', hall⟩ := C211_velocities_of_moved_mesh w V X N h pl hn hpl Al u s a ha t
  rw [hb] at hb'
  injection hb' with hb'
  subst hb'
  intro he
  have := hall v h1 h2 f hf
  rw [he] at this
  exact hV (mul_right_cancel₀ hflow this)

theorem foldl_eq {β : Type} (l : List Nat) (f g : β → Nat → β) (h : ∀ x ∈ l, ∀ b, f b x = g b x) (b : β) :
    l.foldl f b = l.foldl g b := by
  induction l generalizing b with
  | nil => rfl
  | cons a l ih =>
    simp only [List.foldl_cons]
    rw [h a List.mem_cons_self, ih fun x hx => h x (List.mem_cons_of_mem _ hx)]

/-- **C211** The residual of the moved mesh comes out right, as long as faces still look the same way. -/
theorem C211_residual_of_moved_mesh_partial (w : Wy) (V : Nat → ℝ) (X N : Nat → Nat → ℝ) (h : Areas w V)
    (cor pl : Nat → Nat → Nat) (hstar : ∀ v, w.vStart ≤ v → v < w.vEnd → Star w v (cor v))
    (hpl : ∀ v, w.vStart ≤ v → v < w.vEnd → ∀ f ∈ w.faces v, Place w f v (pl f v))
    (hmap : ∀ c < w.nCells, 0 ≤ w.global c → CellMap w pl c)
    (hside : ∀ c < w.nCells, ∀ f ∈ w.cone c, (stale w V X N).outSign c f = w.outSign c f)
    (K : Nat → Nat → ℝ) (porosity dSdP u dpdt : Nat → ℝ) (l : Local) (s t : Nat → Nat → ℝ) (R R' : Nat → ℝ)
    (hok : wyResidual w K porosity dSdP u dpdt l s R = .ok R') :
    wyResidual (stale w V X N) K porosity dSdP u dpdt l t R = .ok R' := by
  unfold wyResidual at hok ⊢
  have hl : localElementCompute (stale w V X N) K l = localElementCompute w K l := rfl
  rw [hl]
  cases hL : localElementCompute w K l with
  | ok l' =>
    rw [hL] at hok
    dsimp only at hok ⊢
    cases ha : wyRecoverVelocity w l'.A u s with
    | ok a =>
      rw [ha] at hok
      obtain ⟨b, hb, hall⟩ := C211_velocities_of_moved_mesh w V X N h pl
        (fun v h1 h2 => (hstar v h1 h2).faces_nodup) hpl l'.A u s a ha t
      rw [hb]
      dsimp only at hok ⊢
      rw [← hok]
      congr 1
      have hdiv : ∀ c < w.nCells, 0 ≤ w.global c → wyDivergence (stale w V X N) b c = wyDivergence w a c := by
        intro c hc ho
        have hm := hmap c hc ho
        unfold wyDivergence
        refine foldl_eq _ _ _ (fun f hf d => ?_) 0
        show forN w.nfv _ d = _
        have : ∀ n ≤ w.nfv, forN n (fun j div => div + (stale w V X N).outSign c f*b f j*(1/(w.nfv : ℝ))*V f) d
            = forN n (fun j div => div + w.outSign c f*a f j*(1/(w.nfv : ℝ))*w.V f) d := by
          intro n hn
          induction n with
          | zero => rfl
          | succ n ih =>
            simp only [forN]
            rw [ih (by omega), hside c hc f hf]
            obtain ⟨q, hq, i, hi, hface, hplace⟩ := hm.onto f hf n (by omega)
            obtain ⟨h1, h2, h3⟩ := hm.vertex q hq
            have hcor : cor (w.vmap c q) c = q :=
              ((hstar _ h1 h2).cor_only c h3 q hq rfl).symm
            have hfm : f ∈ w.faces (w.vmap c q) := by
              have := (hstar _ h1 h2).face_mem c h3 i hi
              rw [hcor, hface] at this
              exact this
            have := hall _ h1 h2 f hfm
            rw [hplace] at this
            linear_combination w.outSign c f*(1/(w.nfv : ℝ))*this
        exact this _ le_rfl
      show forN w.nCells (fun c R => if w.global c < 0 then R else
        wr R c (porosity c*dSdP c*dpdt c + wyDivergence (stale w V X N) b c - l'.F c)) R = _
      have : ∀ n ≤ w.nCells, forN n (fun c R => if w.global c < 0 then R else
          wr R c (porosity c*dSdP c*dpdt c + wyDivergence (stale w V X N) b c - l'.F c)) R
          = forN n (fun c R => if w.global c < 0 then R else
          wr R c (porosity c*dSdP c*dpdt c + wyDivergence w a c - l'.F c)) R := by
        intro n hn
        induction n with
        | zero => rfl
        | succ n ih =>
          simp only [forN]
          rw [ih (by omega)]
          by_cases ho : w.global n < 0
          · rw [if_pos ho, if_pos ho]
          · rw [if_neg ho, if_neg ho, hdiv n (by omega) (by omega)]
      exact this _ le_rfl
    | err a => rw [ha] at hok; cases hok
    | ub => rw [ha] at hok; cases hok
  | err l' => rw [hL] at hok; cases hok
  | ub => rw [hL] at hok; cases hok

/-- **C211** (violated) The boundary pressure is taken at the old centres of the faces.  On a mesh moved by
`d` as a whole, with a pressure `b + g . x` around it, the solution is that pressure at the old centres: off
by `g . d` in every cell. -/
theorem C211_boundary_pressure_violated (w : Wy) (K : Nat → Nat → ℝ) (l l' : Local) (s s' : Sys)
    (V : Nat → ℝ) (X N : Nat → Nat → ℝ) (hV : Areas w V)
    (cor : Nat → Nat → Nat) (pl : Nat → Nat → Nat) (num : Nat → Nat) (hnum : GlobalNumbers w num)
    (hown : ∀ c < w.nCells, 0 ≤ w.global c)
    (hstar : ∀ v, w.vStart ≤ v → v < w.vEnd → Star w v (cor v))
    (hpl : ∀ v, w.vStart ≤ v → v < w.vEnd → ∀ f ∈ w.faces v, Place w f v (pl f v))
    (hsides : ∀ v, w.vStart ≤ v → v < w.vEnd → ∀ f ∈ w.faces v, ¬ Wy.given w f →
      Opposite w v (cor v) f)
    (hmap : ∀ c < w.nCells, CellMap w pl c) (hnq : w.nq = 2^w.dim)
    (hreg : ∀ c < w.nCells, Regular w K c)
    (hcov : ∀ v, w.vStart ≤ v → v < w.vEnd → ∀ f ∈ w.faces v, Covered w v (cor v) f)
    (hsize : ∀ v, w.vStart ≤ v → v < w.vEnd → (w.faces v).length ≤ 12 ∧ (w.cells v).length ≤ 12)
    (hlost : ∀ v, w.vStart ≤ v → v < w.vEnd → NothingLost w l'.A v) (htied : Tied w cor)
    (hforce : w.hasForcing = false)
    (D : Nat → Matrix (Fin w.dim) (Fin w.dim) ℝ) (haff : ∀ c < w.nCells, Affine w c (D c))
    (b : ℝ) (g W d : Fin w.dim → ℝ) (hK : ∀ c < w.nCells, (toMatrix w.dim (K c)).mulVec g = W)
    (hX : ∀ f, ∀ k : Fin w.dim, X f k = w.X f k - d k)
    (hp : ∀ f, Wy.given w f → w.pb f = b + ∑ k : Fin w.dim, g k*X f k)
    (hzero : (∀ i j, s.K i j = 0) ∧ ∀ i, s.F i = 0)
    (hok : wyComputeSystem (stale w V X N) K l s = .ok (l', s')) :
    ∀ p, SolvesCells w num s'.K (fun c => s'.F (num c)) p →
      ∀ c < w.nCells, p c = b + ∑ k : Fin w.dim, g k*w.X c k - ∑ k : Fin w.dim, g k*d k := by
  rw [C211_system_of_moved_mesh_partial w V X N hV] at hok
  have e : ∀ f, b + ∑ k : Fin w.dim, g k*X f k = linearAt w (b - ∑ k : Fin w.dim, g k*d k) g f := by
    intro f
    unfold linearAt
    have : ∑ k : Fin w.dim, g k*X f k = ∑ k : Fin w.dim, g k*w.X f k - ∑ k : Fin w.dim, g k*d k := by
      rw [← sum_sub_distrib]
      exact sum_congr rfl fun k _ => by rw [hX]; ring
    rw [this]
    ring
  intro p hsol c hc
  have h := (C208_solution_is_linear_partial w K l l' s s' cor pl num hnum hown hstar hpl hsides hmap hnq hreg
    hcov hsize hlost htied hforce D haff (b - ∑ k : Fin w.dim, g k*d k) g W hK
    (fun f hf => (hp f hf).trans (e f)) hzero hok).2 p hsol c hc
  rw [h]
  unfold linearAt
  ring

end

end TDy.Fe.Props

namespace TDy.Fe.Props.WyMovedWitness

open TDy.Fe TDy.Fe.Spec TDy.Fe.Proofs Finset
open TDy.Fe.Props.WyEnergyWitness TDy.Fe.Props.WyLinearWitness

noncomputable section

/-- Squares of side one at setup, of side two now. -/
theorem grown : Areas slope (fun _ => 1) := by
  intro f h1 h2
  change 11 ≤ f at h1
  refine ⟨?_, one_ne_zero⟩
  show (if f < 3 then (4:ℝ) else 2) ≠ 0
  rw [if_neg (by omega)]
  exact two_ne_zero

/-- The velocity through face 12 of the three squares with pressure `1 + 2 x + 3 y` is -2; if the squares
had side one when setup was called, -4 is reported. -/
example (l l' : Local) (s t a : Nat → Nat → ℝ)
    (hl : localElementCompute slope (perm fun _ => 1) l = .ok l')
    (ha : wyRecoverVelocity slope l'.A (fun c => 6 + 4*c) s = .ok a) :
    ∃ b, wyRecoverVelocity (stale slope (fun _ => 1) (fun k i => slope.X k i/2) slope.N)
      l'.A (fun c => 6 + 4*c) t = .ok b ∧ a 12 0 = -2 ∧ b 12 0 = -4 := by
  obtain ⟨b, hb, hall⟩ := C211_velocities_of_moved_mesh slope _ (fun k i => slope.X k i/2) slope.N grown slopePl
    (fun v h1 h2 => (slope_star v h1 h2).faces_nodup) slope_place l'.A (fun c => 6 + 4*c) s a ha t
  have h := C208_exact_velocities slope _ l l' _ s a trioCor slopePl slope_star slope_place slope_sides
    (fun _ => (1 : Matrix (Fin 2) (Fin 2) ℝ)) slope_affine 1 grad grad
    slope_perm (fun c hc => by
      change c < 3 at hc
      rw [slope_linear]
      interval_cases c <;> norm_num [trio]) (fun f _ => (slope_linear f).symm) hl ha
  have e : normalVelocity slope grad 12 = -2 := by
    show -∑ k : Fin 2, grad k*trio.N 12 k = _
    rw [Fin.sum_univ_two]
    show -((2:ℝ)*trio.N 12 0 + 3*trio.N 12 1) = _
    norm_num [trio]
  have ha0 : a 12 0 = -2 := (h 4 (by decide) (by decide) 12 (by decide)).trans e
  refine ⟨b, hb, ha0, ?_⟩
  have h2 : (1:ℝ)*b 12 0 = slope.V 12*a 12 0 :=
    hall 4 (by decide) (by decide) 12 (by decide)
  have hV : slope.V 12 = 2 := by
    show (if 12 < 3 then (4:ℝ) else 2) = 2
    norm_num
  rw [ha0, hV] at h2
  norm_num at h2
  exact h2

/-- The residual does not change: signs of `N . (X_f - X_c)` are the same with half the distances. -/
example (l : Local) (s t : Nat → Nat → ℝ) (R R' : Nat → ℝ)
    (h : wyResidual slope (perm fun _ => 1) (fun _ => 1) (fun _ => 1) (fun c => 6 + 4*c) (fun _ => 0) l s R
      = .ok R') :
    wyResidual (stale slope (fun _ => 1) (fun k i => slope.X k i/2) slope.N)
      (perm fun _ => 1) (fun _ => 1) (fun _ => 1) (fun c => 6 + 4*c) (fun _ => 0) l t R = .ok R' := by
  refine C211_residual_of_moved_mesh_partial slope _ _ _ grown trioCor slopePl slope_star slope_place
    (fun c hc _ => slope_map c hc) (fun c _ f _ => ?_) _ _ _ _ _ l s t R R' h
  have e : aDotBMinusC (slope.N f) (fun i => slope.X f i/2) (fun i => slope.X c i/2) slope.dim
      = aDotBMinusC (slope.N f) (slope.X f) (slope.X c) slope.dim/2 := by
    show forN 2 _ _ = forN 2 _ _/2
    simp only [forN]
    ring
  unfold Wy.outSign
  show (if aDotBMinusC (slope.N f) (fun i => slope.X f i/2) (fun i => slope.X c i/2) slope.dim < 0 then _
    else if aDotBMinusC (slope.N f) (fun i => slope.X f i/2) (fun i => slope.X c i/2) slope.dim = 0 then _ else _)
    = _
  rw [e]
  have h1 : aDotBMinusC (slope.N f) (slope.X f) (slope.X c) slope.dim/2 < 0
      ↔ aDotBMinusC (slope.N f) (slope.X f) (slope.X c) slope.dim < 0 := by constructor <;> intro h <;> linarith
  have h2 : aDotBMinusC (slope.N f) (slope.X f) (slope.X c) slope.dim/2 = 0
      ↔ aDotBMinusC (slope.N f) (slope.X f) (slope.X c) slope.dim = 0 := by constructor <;> intro h <;> linarith
  simp only [h1, h2]

/-- The three squares, which were one unit further to the left when setup was called: the boundary
pressure is that of the old centres. -/
def moved : Wy := {slope with pb := fun f => 1 + (2*(trio.X f 0 - 1) + 3*trio.X f 1)}

def oldX (f k : Nat) : ℝ := if k = 0 then trio.X f 0 - 1 else trio.X f k

theorem moved_star : ∀ v, moved.vStart ≤ v → v < moved.vEnd → Star moved v (trioCor v) := by
  intro v h1 h2
  have h := slope_star v h1 h2
  exact ⟨h.faces_nodup, h.cells_nodup, h.cor_lt, h.cor_at, h.cor_only, h.face_mem, h.face_inj, h.bc_once⟩

theorem moved_map : ∀ c < moved.nCells, CellMap moved slopePl c := by
  intro c hc
  have h := slope_map c hc
  exact ⟨h.vertex, h.cone_nodup, h.face_in, h.onto, h.size⟩

theorem moved_affine : ∀ c < moved.nCells, Affine moved c (1 : Matrix (Fin 2) (Fin 2) ℝ) := by
  intro c hc
  obtain ⟨h1, h2, h3, h4, h5, h6⟩ := slope_affine c hc
  exact ⟨h1, h2, h3, h4, h5, h6⟩

theorem moved_tied : Tied moved trioCor := by
  intro c hc
  change c < 3 at hc
  refine ⟨c, .refl, ?_⟩
  have : AtBoundary trio trioCor c := by
    interval_cases c
    · exact trio_outside (.inl ⟨rfl, rfl, rfl⟩)
    · exact trio_outside (.inr (.inl ⟨rfl, rfl, rfl⟩))
    · exact trio_outside (.inr (.inr ⟨rfl, rfl, rfl⟩))
  obtain ⟨v, f, h1, h2, h3, ⟨h4, h5, h6⟩⟩ := this
  exact ⟨v, f, h1, h2, h3, ⟨h4, h5, h6⟩⟩

theorem moved_lost {l : Local} (hl : ∀ c < moved.nCells, LocalIs moved (perm fun _ => 1) l c) {s t : Sys}
    (ht : forN (moved.vEnd - moved.vStart)
      (fun k (r : Res Sys) => r.bind (systemVertex moved l.A (moved.vStart + k))) (.ok s) = .ok t) :
    ∀ v, moved.vStart ≤ v → v < moved.vEnd → NothingLost moved l.A v := by
  intro v h1 h2
  obtain ⟨x, y, hxy⟩ := vertices_ok ht (v - moved.vStart) (by omega)
  rw [show moved.vStart + (v - moved.vStart) = v by omega] at hxy
  have hl' : ∀ c < trio.nCells, LocalIs trio (perm fun _ => 1)
      ⟨l.A, fun c => if trio.hasForcing then ∑ q ∈ range trio.nq, trio.force c q*trio.J c q else 0⟩ c :=
    fun c hc => ⟨(hl c hc).1, rfl⟩
  exact nothing_lost (moved_star v h1 h2) hxy (trio_entries hl' v h1 h2)

/-- The right pressures are 6, 10 and 14; the solution has 4, 8 and 12. -/
example (l : Local) : ∃ l' s',
    wyComputeSystem (stale moved moved.V oldX moved.N) (perm fun _ => 1) l ⟨fun _ _ => 0, fun _ => 0⟩
      = .ok (l', s') ∧
    ∀ p, SolvesCells moved id s'.K s'.F p → p 0 = 4 ∧ p 1 = 8 ∧ p 2 = 12 := by
  have hA : Areas moved moved.V := by
    intro f h1 h2
    change 11 ≤ f at h1
    have : moved.V f ≠ 0 := by
      show (if f < 3 then (4:ℝ) else 2) ≠ 0
      rw [if_neg (by omega)]
      exact two_ne_zero
    exact ⟨this, this⟩
  obtain ⟨l', s', hok, _⟩ := C119_regular_partial moved (perm fun _ => 1) trioCor moved_star slope_regular
    slope_cov trio_size l ⟨fun _ _ => 0, fun _ => 0⟩ (fun _ => 0) (fun _ _ => 0)
  obtain ⟨hl, t, ht, _⟩ := system_parts hok
  have hok' := (C211_system_of_moved_mesh_partial moved moved.V oldX moved.N hA (perm fun _ => 1) l
    ⟨fun _ _ => 0, fun _ => 0⟩).trans hok
  have h := C211_boundary_pressure_violated moved _ l l' _ s' moved.V oldX moved.N hA trioCor slopePl id
    ⟨by decide, fun _ _ _ _ h => h⟩ (by decide) moved_star slope_place slope_sides moved_map rfl slope_regular slope_cov trio_size
    (moved_lost (local_ok hl) ht) moved_tied rfl (fun _ => (1 : Matrix (Fin 2) (Fin 2) ℝ)) moved_affine 1
    grad grad (fun k : Fin 2 => if k = 0 then 1 else 0) slope_perm (fun f (k : Fin 2) => by
      show (if (k : Nat) = 0 then trio.X f 0 - 1 else trio.X f k) = trio.X f k - (if k = 0 then 1 else 0)
      fin_cases k <;> simp) (fun f _ => by
      show (1:ℝ) + (2*(trio.X f 0 - 1) + 3*trio.X f 1) = 1 + ∑ k : Fin 2, grad k*oldX f k
      rw [Fin.sum_univ_two]
      rfl) ⟨fun _ _ => rfl, fun _ => rfl⟩ hok'
  refine ⟨l', s', hok', fun p hp => ?_⟩
  have h' : ∀ c < 3, p c = 1 + (2*trio.X c 0 + 3*trio.X c 1) - 2 := by
    intro c hc
    refine (h p hp c hc).trans ?_
    show (1:ℝ) + ∑ k : Fin 2, grad k*trio.X c k - ∑ k : Fin 2, grad k*(if k = 0 then 1 else 0) = _
    rw [Fin.sum_univ_two, Fin.sum_univ_two]
    show (1:ℝ) + (2*trio.X c 0 + 3*trio.X c 1) - (2*(if (0 : Fin 2) = 0 then 1 else 0)
      + 3*(if (1 : Fin 2) = 0 then 1 else 0)) = _
    norm_num
  refine ⟨?_, ?_, ?_⟩
  · rw [h' 0 (by decide)]
    norm_num [trio]
  · rw [h' 1 (by decide)]
    norm_num [trio]
  · rw [h' 2 (by decide)]
    norm_num [trio]

end

end TDy.Fe.Props.WyMovedWitness
