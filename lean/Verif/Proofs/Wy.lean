import Mathlib.Tactic.Ring
import Mathlib.Tactic.Linarith
import Mathlib.Algebra.BigOperators.Intervals
import Mathlib.Algebra.BigOperators.Ring.Finset
import Verif.Spec.Wy
import Verif.Proofs.Bdm

/-!
# The vertex-local systems of the WY method in closed form
-/

namespace TDy.Fe.Proofs

open TDy.Fe TDy.Fe.Spec Finset
open TDy.Fvtpf (addAt addMat)
open TDy.Fvtpf.Proofs (addAt_apply addMat_apply)

noncomputable section

theorem lookup_mem (l : List Nat) (x : Nat) (h : x ∈ l) : lookup l x = some (l.idxOf x) := by
  unfold lookup
  induction l with
  | nil => simp at h
  | cons a l ih =>
    rw [List.findIdx?_cons, List.idxOf_cons]
    by_cases ha : (a == x) = true
    · simp [ha]
    · have hx : x ∈ l := by
        rcases List.mem_cons.1 h with h | h
        · exact absurd (by simp [h]) ha
        · exact h
      rw [ih hx]
      simp [ha]

theorem find_range (n : Nat) (p : Nat → Bool) (k : Nat) (hk : k < n) (hp : p k = true)
    (hu : ∀ q < n, p q = true → q = k) : (List.range n).find? p = some k := by
  cases hf : (List.range n).find? p with
  | none => exact absurd hp (by simpa using List.find?_eq_none.1 hf k (List.mem_range.2 hk))
  | some q =>
    have h1 := List.find?_some hf
    have h2 := List.mem_range.1 (List.mem_of_find?_eq_some hf)
    rw [hu q h2 h1]

theorem corner_eq {w : Wy} {v : Nat} {cor : Nat → Nat} (h : Star w v cor) {c : Nat}
    (hc : c ∈ w.cells v) : corner w c v = some (cor c) := by
  exact find_range _ _ _ (h.cor_lt c hc) (by rw [h.cor_at c hc]; exact beq_self_eq_true v)
    (fun q hq hp => h.cor_only c hc q hq (beq_iff_eq.1 hp).symm)

/-- A loop over a list whose steps succeed. -/
theorem foldl_ok {σ : Type} (step : Nat → σ → Res σ) (p : Nat → σ → σ) (l : List Nat) (s : σ)
    (h : ∀ c ∈ l, ∀ s, step c s = .ok (p c s)) :
    l.foldl (fun (r : Res σ) c => r.bind (step c)) (.ok s) = .ok (l.foldl (fun s c => p c s) s) := by
  induction l generalizing s with
  | nil => rfl
  | cons a l ih =>
    rw [List.foldl_cons, List.foldl_cons, Res.bind, h a (by simp) s]
    exact ih (p a s) (fun c hc => h c (by simp [hc]))

theorem forN_ok {σ : Type} (n : Nat) (step : Nat → σ → Res σ) (p : Nat → σ → σ) (s : σ)
    (h : ∀ i < n, ∀ s, step i s = .ok (p i s)) :
    forN n (fun i (r : Res σ) => r.bind (step i)) (.ok s) = .ok (forN n p s) := by
  induction n with
  | zero => rfl
  | succ n ih => rw [forN, forN, ih (fun i hi => h i (by omega)), Res.bind, h n (by omega)]

theorem foldl_adds {σ : Type} (φ : σ → ℝ) (g : Nat → ℝ) (p : Nat → σ → σ) (l : List Nat) (hl : l.Nodup)
    (s : σ) (h : ∀ c ∈ l, ∀ s, φ (p c s) = φ s + g c) :
    φ (l.foldl (fun s c => p c s) s) = φ s + ∑ c ∈ l.toFinset, g c := by
  induction l generalizing s with
  | nil => simp
  | cons a l ih =>
    rw [List.nodup_cons] at hl
    rw [List.foldl_cons, ih hl.2 _ (fun c hc => h c (by simp [hc])), h a (by simp), List.toFinset_cons,
      sum_insert (by simpa using hl.1), add_assoc]

/-! ### Steps that succeed -/

/-- Place of a face among the faces of the vertex. -/
def Fi (w : Wy) (v f : Nat) : Nat := (w.faces v).idxOf f
def Ci (w : Wy) (v c : Nat) : Nat := (w.cells v).idxOf c

/-- Entry `(i,j)` of the matrix of a corner. -/
def aTerm (w : Wy) (Al : Nat → Nat → Nat → ℝ) (cor : Nat → Nat) (c i j : Nat) : ℝ :=
  Al c (cor c) (i*w.dim + j)*w.sign c (cor c) i*w.sign c (cor c) j
    *w.V (w.face c (cor c) i)*w.V (w.face c (cor c) j)

def bTerm (w : Wy) (cor : Nat → Nat) (c i : Nat) : ℝ :=
  wgt w*w.sign c (cor c) i*w.V (w.face c (cor c) i)

def pAddRow (w : Wy) (Al : Nat → Nat → Nat → ℝ) (v : Nat) (cor : Nat → Nat) (c i : Nat)
    (A : Nat → Nat → ℝ) : Nat → Nat → ℝ :=
  forN w.dim (fun j A => addMat A (Fi w v (w.face c (cor c) i)) (Fi w v (w.face c (cor c) j))
    (aTerm w Al cor c i j)) A

theorem addRow_ok {w : Wy} {v : Nat} {cor : Nat → Nat} (h : Star w v cor) (Al : Nat → Nat → Nat → ℝ)
    {c : Nat} (hc : c ∈ w.cells v) (i : Nat) (A : Nat → Nat → ℝ) :
    addRow w Al (w.faces v) c (cor c) i (Fi w v (w.face c (cor c) i)) A
      = .ok (pAddRow w Al v cor c i A) := by
  unfold addRow pAddRow
  refine forN_ok w.dim _ _ A (fun j hj A => ?_)
  rw [lookup_mem _ _ (h.face_mem c hc j hj)]
  rfl

def pSystemRow (w : Wy) (Al : Nat → Nat → Nat → ℝ) (v : Nat) (cor : Nat → Nat) (c i : Nat)
    (s : VSys) : VSys :=
  ⟨pAddRow w Al v cor c i s.A,
    addMat s.B (Fi w v (w.face c (cor c) i)) (Ci w v c) (bTerm w cor c i),
    if w.bc (w.face c (cor c) i) && w.hasPressure then
      wr s.G (Fi w v (w.face c (cor c) i))
        (wgt w*w.sign c (cor c) i*w.pb (w.face c (cor c) i)*w.V (w.face c (cor c) i)) else s.G⟩

def pSystemCell (w : Wy) (Al : Nat → Nat → Nat → ℝ) (v : Nat) (cor : Nat → Nat) (c : Nat)
    (s : VSys) : VSys := forN w.dim (pSystemRow w Al v cor c) s

theorem systemCell_ok {w : Wy} {v : Nat} {cor : Nat → Nat} (h : Star w v cor) (Al : Nat → Nat → Nat → ℝ)
    {c : Nat} (hc : c ∈ w.cells v) (s : VSys) :
    systemCell w Al v c s = .ok (pSystemCell w Al v cor c s) := by
  unfold systemCell pSystemCell
  rw [corner_eq h hc]
  refine forN_ok w.dim _ _ s (fun i hi s => ?_)
  unfold systemRow
  rw [lookup_mem _ _ (h.face_mem c hc i hi), lookup_mem _ _ hc]
  dsimp only
  rw [show (w.faces v).idxOf (w.face c (cor c) i) = Fi w v (w.face c (cor c) i) from rfl,
    addRow_ok h Al hc]
  rfl

def pVelocityRow (w : Wy) (Al : Nat → Nat → Nat → ℝ) (u : Nat → ℝ) (v : Nat) (cor : Nat → Nat) (c i : Nat)
    (s : VVel) : VVel :=
  let F := addAt s.F (Fi w v (w.face c (cor c) i)) (wgt w*w.sign c (cor c) i*u c*w.V (w.face c (cor c) i))
  ⟨pAddRow w Al v cor c i s.A, if w.bc (w.face c (cor c) i) && w.hasPressure then
    addAt F (Fi w v (w.face c (cor c) i))
      (-wgt w*w.sign c (cor c) i*w.pb (w.face c (cor c) i)*w.V (w.face c (cor c) i)) else F⟩

def pVelocityCell (w : Wy) (Al : Nat → Nat → Nat → ℝ) (u : Nat → ℝ) (v : Nat) (cor : Nat → Nat) (c : Nat)
    (s : VVel) : VVel := forN w.dim (pVelocityRow w Al u v cor c) s

theorem velocityCell_ok {w : Wy} {v : Nat} {cor : Nat → Nat} (h : Star w v cor)
    (Al : Nat → Nat → Nat → ℝ) (u : Nat → ℝ) {c : Nat} (hc : c ∈ w.cells v) (s : VVel) :
    velocityCell w Al u v c s = .ok (pVelocityCell w Al u v cor c s) := by
  unfold velocityCell pVelocityCell
  rw [corner_eq h hc]
  refine forN_ok w.dim _ _ s (fun i hi s => ?_)
  unfold velocityRow
  rw [lookup_mem _ _ (h.face_mem c hc i hi), lookup_mem _ _ hc]
  dsimp only
  rw [show (w.faces v).idxOf (w.face c (cor c) i) = Fi w v (w.face c (cor c) i) from rfl,
    addRow_ok h Al hc]
  rfl

/-! ### Closed forms -/

theorem pAddRow_apply (w : Wy) (Al : Nat → Nat → Nat → ℝ) (v : Nat) (cor : Nat → Nat) (c i : Nat)
    (A : Nat → Nat → ℝ) (r k : Nat) : pAddRow w Al v cor c i A r k = A r k
      + ∑ j ∈ range w.dim, if r = Fi w v (w.face c (cor c) i) ∧ k = Fi w v (w.face c (cor c) j) then
        aTerm w Al cor c i j else 0 := by
  unfold pAddRow
  exact forN_adds (fun A : Nat → Nat → ℝ => A r k) _ _ _ _ (fun j _ A => addMat_apply _ _ _ _ _ _)

/-- `A`. -/
def aMat (w : Wy) (Al : Nat → Nat → Nat → ℝ) (v : Nat) (cor : Nat → Nat) (r k : Nat) : ℝ :=
  ∑ c ∈ (w.cells v).toFinset, ∑ i ∈ range w.dim, ∑ j ∈ range w.dim,
    if r = Fi w v (w.face c (cor c) i) ∧ k = Fi w v (w.face c (cor c) j) then aTerm w Al cor c i j else 0

/-- `B`. -/
def bMat (w : Wy) (v : Nat) (cor : Nat → Nat) (r k : Nat) : ℝ :=
  ∑ c ∈ (w.cells v).toFinset, ∑ i ∈ range w.dim,
    if r = Fi w v (w.face c (cor c) i) ∧ k = Ci w v c then bTerm w cor c i else 0

/-- `G`: the given pressure. -/
def gVec (w : Wy) (v : Nat) (cor : Nat → Nat) (r : Nat) : ℝ :=
  ∑ c ∈ (w.cells v).toFinset, ∑ i ∈ range w.dim,
    if r = Fi w v (w.face c (cor c) i) ∧ (w.bc (w.face c (cor c) i) && w.hasPressure) = true then
      bTerm w cor c i*w.pb (w.face c (cor c) i) else 0

/-- `F` of the velocities. -/
def fVec (w : Wy) (u : Nat → ℝ) (v : Nat) (cor : Nat → Nat) (r : Nat) : ℝ :=
  (∑ c ∈ (w.cells v).toFinset, ∑ i ∈ range w.dim,
    if r = Fi w v (w.face c (cor c) i) then bTerm w cor c i*u c else 0) - gVec w v cor r

theorem velocity_closed {w : Wy} {v : Nat} {cor : Nat → Nat} (h : Star w v cor)
    (Al : Nat → Nat → Nat → ℝ) (u : Nat → ℝ) (hs : ¬ 144 < (w.faces v).length*(w.faces v).length) :
    ∃ t, vertexVelocity w Al u v = .ok t ∧ (∀ r k, t.A r k = aMat w Al v cor r k)
      ∧ ∀ r, t.F r = fVec w u v cor r := by
  unfold vertexVelocity
  rw [if_neg hs, foldl_ok _ (pVelocityCell w Al u v cor) _ _ (fun c hc s => velocityCell_ok h Al u hc s)]
  refine ⟨_, rfl, fun r k => ?_, fun r => ?_⟩
  · rw [foldl_adds (fun s : VVel => s.A r k) (fun c => ∑ i ∈ range w.dim, ∑ j ∈ range w.dim,
      if r = Fi w v (w.face c (cor c) i) ∧ k = Fi w v (w.face c (cor c) j) then aTerm w Al cor c i j else 0)
      _ _ h.cells_nodup]
    · exact zero_add _
    · intro c _ s
      exact forN_adds (fun s : VVel => s.A r k) _ _ _ _ (fun i _ s => pAddRow_apply w Al v cor c i s.A r k)
  · unfold fVec gVec
    rw [← sum_sub_distrib, foldl_adds (fun s : VVel => s.F r) (fun c => (∑ i ∈ range w.dim,
      if r = Fi w v (w.face c (cor c) i) then bTerm w cor c i*u c else 0) - ∑ i ∈ range w.dim,
      if r = Fi w v (w.face c (cor c) i) ∧ (w.bc (w.face c (cor c) i) && w.hasPressure) = true then
      bTerm w cor c i*w.pb (w.face c (cor c) i) else 0) _ _ h.cells_nodup]
    · exact zero_add _
    · intro c _ s
      rw [← sum_sub_distrib]
      refine forN_adds (fun s : VVel => s.F r) _ _ _ _ (fun i _ s => ?_)
      unfold pVelocityRow bTerm
      dsimp only
      by_cases hb : (w.bc (w.face c (cor c) i) && w.hasPressure) = true
      · rw [if_pos hb, addAt_apply, addAt_apply]
        by_cases hr : r = Fi w v (w.face c (cor c) i)
        · rw [if_pos hr, if_pos hr, if_pos hr, if_pos ⟨hr, hb⟩]
          ring
        · rw [if_neg hr, if_neg hr, if_neg hr, if_neg (fun h : _ ∧ _ => hr h.1)]
          ring
      · rw [if_neg hb, addAt_apply]
        by_cases hr : r = Fi w v (w.face c (cor c) i)
        · rw [if_pos hr, if_pos hr, if_neg (fun h => hb h.2)]
          ring
        · rw [if_neg hr, if_neg hr, if_neg (fun h => hb h.2)]
          ring

/-! ### Assignments that happen once -/

theorem forN_set {σ : Type} (φ : σ → ℝ) (n : Nat) (body : Nat → σ → σ) (T : Nat → Prop) [DecidablePred T]
    (g : Nat → ℝ) (s : σ) (h1 : ∀ i < n, T i → ∀ s, φ (body i s) = g i)
    (h2 : ∀ i < n, ¬ T i → ∀ s, φ (body i s) = φ s) (hu : ∀ i < n, ∀ j < n, T i → T j → i = j)
    (hx : φ s = 0 ∨ ∀ i < n, ¬ T i) :
    φ (forN n body s) = φ s + ∑ i ∈ range n, if T i then g i else 0 := by
  induction n with
  | zero => simp [forN]
  | succ n ih =>
    have ih' := ih (fun i hi => h1 i (by omega)) (fun i hi => h2 i (by omega))
      (fun i hi j hj => hu i (by omega) j (by omega)) (hx.imp_right fun h i hi => h i (by omega))
    rw [forN, sum_range_succ]
    by_cases hT : T n
    · rw [h1 n (by omega) hT, if_pos hT]
      have h0 : φ s = 0 := hx.resolve_right fun h => h n (by omega) hT
      rw [h0, sum_eq_zero, zero_add, zero_add]
      intro i hi
      refine if_neg fun hTi => ?_
      have := hu i (by have := mem_range.1 hi; omega) n (by omega) hTi hT
      exact absurd (mem_range.1 hi) (by omega)
    · rw [h2 n (by omega) hT, if_neg hT, add_zero, ih']

theorem foldl_set {σ : Type} (φ : σ → ℝ) (p : Nat → σ → σ) (l : List Nat) (hl : l.Nodup) (T : Nat → Prop)
    [DecidablePred T] (g : Nat → ℝ) (s : σ) (h1 : ∀ c ∈ l, T c → ∀ s, φ s = 0 → φ (p c s) = g c)
    (h2 : ∀ c ∈ l, ¬ T c → ∀ s, φ (p c s) = φ s) (hu : ∀ c ∈ l, ∀ c' ∈ l, T c → T c' → c = c')
    (hx : φ s = 0 ∨ ∀ c ∈ l, ¬ T c) :
    φ (l.foldl (fun s c => p c s) s) = φ s + ∑ c ∈ l.toFinset, if T c then g c else 0 := by
  induction l generalizing s with
  | nil => simp
  | cons a l ih =>
    rw [List.nodup_cons] at hl
    rw [List.foldl_cons, List.toFinset_cons, sum_insert (by simpa using hl.1)]
    by_cases hT : T a
    · have hno : ∀ c ∈ l, ¬ T c := by
        intro c hc hTc
        have := hu c (by simp [hc]) a (by simp) hTc hT
        exact hl.1 (this ▸ hc)
      have h0 : φ s = 0 := hx.resolve_right fun h => h a (by simp) hT
      rw [ih hl.2 _ (fun c hc => h1 c (by simp [hc])) (fun c hc => h2 c (by simp [hc]))
        (fun c hc c' hc' => hu c (by simp [hc]) c' (by simp [hc'])) (.inr hno), h1 a (by simp) hT s h0,
        if_pos hT, h0, zero_add]
    · rw [ih hl.2 _ (fun c hc => h1 c (by simp [hc])) (fun c hc => h2 c (by simp [hc]))
        (fun c hc c' hc' => hu c (by simp [hc]) c' (by simp [hc']))
        (hx.imp (fun h => (h2 a (by simp) hT s).trans h) fun h c hc => h c (by simp [hc])),
        h2 a (by simp) hT, if_neg hT, zero_add]

theorem Fi_inj {w : Wy} {v f f' : Nat} (hf : f ∈ w.faces v) (h : Fi w v f = Fi w v f') : f = f' := by
  unfold Fi at h
  exact (List.idxOf_inj hf).1 h

theorem system_closed {w : Wy} {v : Nat} {cor : Nat → Nat} (h : Star w v cor)
    (Al : Nat → Nat → Nat → ℝ) (hs : ¬ tooLarge w v) :
    ∃ t, vertexSystem w Al v = .ok t ∧ (∀ r k, t.A r k = aMat w Al v cor r k)
      ∧ (∀ r k, t.B r k = bMat w v cor r k) ∧ ∀ r, t.G r = gVec w v cor r := by
  unfold vertexSystem
  rw [if_neg hs, foldl_ok _ (pSystemCell w Al v cor) _ _ (fun c hc s => systemCell_ok h Al hc s)]
  refine ⟨_, rfl, fun r k => ?_, fun r k => ?_, fun r => ?_⟩
  · rw [foldl_adds (fun s : VSys => s.A r k) (fun c => ∑ i ∈ range w.dim, ∑ j ∈ range w.dim,
      if r = Fi w v (w.face c (cor c) i) ∧ k = Fi w v (w.face c (cor c) j) then aTerm w Al cor c i j else 0)
      _ _ h.cells_nodup]
    · exact zero_add _
    · intro c _ s
      exact forN_adds (fun s : VSys => s.A r k) _ _ _ _ (fun i _ s => pAddRow_apply w Al v cor c i s.A r k)
  · rw [foldl_adds (fun s : VSys => s.B r k) (fun c => ∑ i ∈ range w.dim,
      if r = Fi w v (w.face c (cor c) i) ∧ k = Ci w v c then bTerm w cor c i else 0)
      _ _ h.cells_nodup]
    · exact zero_add _
    · intro c _ s
      exact forN_adds (fun s : VSys => s.B r k) _ _ _ _ (fun i _ s => addMat_apply _ _ _ _ _ _)
  · classical
    set T : Nat → Nat → Prop := fun c i => i < w.dim ∧ r = Fi w v (w.face c (cor c) i)
      ∧ (w.bc (w.face c (cor c) i) && w.hasPressure) = true with hT
    have hTu : ∀ c ∈ w.cells v, ∀ c' ∈ w.cells v, ∀ i j, T c i → T c' j → c = c' ∧ i = j := by
      rintro c hc c' hc' i j ⟨hi, hr, hb⟩ ⟨hj, hr', _⟩
      have hf := Fi_inj (h.face_mem c hc i hi) (hr.symm.trans hr')
      rw [Bool.and_eq_true] at hb
      have := h.bc_once c hc c' hc' i hi j hj hf hb.1 hb.2
      subst this
      exact ⟨rfl, h.face_inj c hc i hi j hj hf⟩
    have hcell : ∀ c ∈ w.cells v, ∀ s : VSys, (s.G r = 0 ∨ ∀ i < w.dim, ¬ T c i) →
        (pSystemCell w Al v cor c s).G r = s.G r + ∑ i ∈ range w.dim, if T c i then
          bTerm w cor c i*w.pb (w.face c (cor c) i) else 0 := by
      intro c hc s hx
      refine forN_set (fun s : VSys => s.G r) w.dim _ (T c)
        (fun i => bTerm w cor c i*w.pb (w.face c (cor c) i)) s ?_ ?_ ?_ hx
      · rintro i hi ⟨_, hr, hb⟩ s
        show (if _ then wr s.G _ _ else s.G) r = _
        rw [if_pos hb, ← hr, wr_same, bTerm]
        ring
      · intro i hi hn s
        show (if _ then wr s.G _ _ else s.G) r = _
        by_cases hb : (w.bc (w.face c (cor c) i) && w.hasPressure) = true
        · rw [if_pos hb, wr_other]
          exact fun hr => hn ⟨hi, hr, hb⟩
        · rw [if_neg hb]
      · intro i _ j _ hTi hTj
        exact (hTu c hc c hc i j hTi hTj).2
    have hzero : ∀ c, (¬ ∃ i, T c i) → (∑ i ∈ range w.dim, if T c i then
          bTerm w cor c i*w.pb (w.face c (cor c) i) else 0) = 0 := by
      intro c hn
      exact sum_eq_zero fun i _ => if_neg fun hi => hn ⟨i, hi⟩
    rw [foldl_set (fun s : VSys => s.G r) _ _ h.cells_nodup (fun c => ∃ i, T c i)
      (fun c => ∑ i ∈ range w.dim, if T c i then bTerm w cor c i*w.pb (w.face c (cor c) i) else 0)]
    · rw [show ((⟨fun _ _ => 0, fun _ _ => 0, fun _ => 0⟩ : VSys).G r) = 0 from rfl, zero_add]
      unfold gVec
      refine sum_congr rfl fun c _ => ?_
      have : ∀ i ∈ range w.dim, (if T c i then bTerm w cor c i*w.pb (w.face c (cor c) i) else 0)
          = if r = Fi w v (w.face c (cor c) i) ∧ (w.bc (w.face c (cor c) i) && w.hasPressure) = true then
            bTerm w cor c i*w.pb (w.face c (cor c) i) else 0 := by
        intro i hi
        have hi' := mem_range.1 hi
        by_cases hTi : T c i
        · rw [if_pos hTi, if_pos hTi.2]
        · rw [if_neg hTi, if_neg fun hh => hTi ⟨hi', hh⟩]
      rw [← sum_congr rfl this]
      by_cases hex : ∃ i, T c i
      · rw [if_pos hex]
      · rw [if_neg hex, hzero c hex]
    · intro c hc _ s h0
      rw [hcell c hc s (.inl h0), h0, zero_add]
    · intro c hc hn s
      rw [hcell c hc s (.inr fun i _ hi => hn ⟨i, hi⟩), hzero c hn, add_zero]
    · rintro c hc c' hc' ⟨i, hi⟩ ⟨j, hj⟩
      exact (hTu c hc c' hc' i j hi hj).1
    · exact .inl rfl

end

end TDy.Fe.Proofs
