import Verif.Spec.MpfaoTrans
import Mathlib.Data.Nat.Count
import Mathlib.Tactic.Ring
import Mathlib.Tactic.Linarith
import Mathlib.Algebra.BigOperators.Fin

/-! # The numbering and the matrices C and F in closed form -/

namespace TDy.Mpfao.Proofs

open TDy.Mpfao.Spec

/-- Subface `q` counted through all subcells is on the boundary. -/
def isB (v : Vtx) (q : Nat) : Prop := (v.sub (q / 3)).internal (q % 3) = false
def isBU (v : Vtx) (q : Nat) : Prop := isB v q ∧ (v.sub (q / 3)).up (q % 3) = true
def isBD (v : Vtx) (q : Nat) : Prop := isB v q ∧ (v.sub (q / 3)).up (q % 3) = false

instance (v : Vtx) : DecidablePred (isB v) := fun _ => inferInstanceAs (Decidable (_ = _))
instance (v : Vtx) : DecidablePred (isBU v) := fun _ => inferInstanceAs (Decidable (_ ∧ _))
instance (v : Vtx) : DecidablePred (isBD v) := fun _ => inferInstanceAs (Decidable (_ ∧ _))

theorem q_div {i f : Nat} (h : f < 3) : (3 * i + f) / 3 = i := by omega
theorem q_mod {i f : Nat} (h : f < 3) : (3 * i + f) % 3 = f := by omega

theorem pair_ne {q q' : Nat} (h : q ≠ q') : ¬(q / 3 = q' / 3 ∧ q % 3 = q' % 3) := by omega

theorem pair_ne' {q q' : Nat} (h : q < q') : ¬(q / 3 = q' / 3 ∧ q % 3 = q' % 3) := by omega

theorem numberUnknowns_inv (v : Vtx) (n : Nat) :
    let st := forN n (fun q st => unkStep v (q / 3) (q % 3) st) (0, fun _ _ => 0)
    st.1 = Nat.count (isB v) n ∧ ∀ q, q < n → st.2 (q / 3) (q % 3) =
      if (v.sub (q / 3)).internal (q % 3) then (v.sub (q / 3)).link (q % 3)
      else v.nIntFaces + Nat.count (isB v) q := by
  intro st
  refine forN_invariant n _ _ (fun n (st : Nat × (Nat → Nat → Nat)) => st.1 = Nat.count (isB v) n ∧ ∀ q, q < n →
    st.2 (q / 3) (q % 3) = if (v.sub (q / 3)).internal (q % 3) then (v.sub (q / 3)).link (q % 3)
      else v.nIntFaces + Nat.count (isB v) q) ⟨by simp, fun q h => absurd h (by omega)⟩ ?_
  rintro m ⟨c, idx⟩ _ ⟨h1, h2⟩
  simp only [unkStep]
  cases hI : (v.sub (m / 3)).internal (m % 3) <;>
    simp only [Bool.false_eq_true, if_false, if_true]
  · refine ⟨?_, fun q hq => ?_⟩
    · rw [Nat.count_succ, if_pos (show isB v m from hI), ← h1]
    · rcases Nat.lt_succ_iff_lt_or_eq.1 hq with h | h
      · rw [if_neg (pair_ne' h)]
        exact h2 q h
      · subst h; simp only [hI, Bool.false_eq_true, if_false, and_self, if_true]
        rw [← h1, Nat.add_comm]
  · refine ⟨?_, fun q hq => ?_⟩
    · rw [Nat.count_succ, if_neg (by simp [isB, hI]), ← h1]; rfl
    · rcases Nat.lt_succ_iff_lt_or_eq.1 hq with h | h
      · rw [if_neg (pair_ne' h)]
        exact h2 q h
      · subst h; simp [hI]

theorem unk_eq (v : Vtx) (i f : Nat) (h : InRange v i f) :
    unk v i f = if (v.sub i).internal f then (v.sub i).link f
      else v.nIntFaces + Nat.count (isB v) (3 * i + f) := by
  have hq : 3 * i + f < 3 * v.npcen := by have := h.1; have := h.2; omega
  have := (numberUnknowns_inv v (3 * v.npcen)).2 (3 * i + f) hq
  rw [q_div h.2, q_mod h.2] at this
  rw [unk, numberUnknowns]
  rw [forN_nest3 v.npcen (unkStep v)]
  exact this

theorem countBnd_eq (v : Vtx) : countBnd v =
    (Nat.count (isBU v) (3 * v.npcen), Nat.count (isBD v) (3 * v.npcen)) := by
  rw [countBnd, forN_nest3 v.npcen (countStep v)]
  refine forN_invariant (3 * v.npcen) _ _
    (fun n st => st = (Nat.count (isBU v) n, Nat.count (isBD v) n)) (by simp) ?_
  rintro m st _ rfl
  rw [Nat.count_succ, Nat.count_succ]
  cases hI : (v.sub (m / 3)).internal (m % 3) <;> cases hU : (v.sub (m / 3)).up (m % 3) <;>
    simp [countStep, isBU, isBD, isB, hI, hU]

theorem gatherBnd_inv (v : Vtx) : (gatherBnd v).1 = Nat.count (isB v) (3 * v.npcen) ∧
    ∀ q, q < 3 * v.npcen → isB v q →
      (gatherBnd v).2 (Nat.count (isB v) q) = (v.sub (q / 3)).bnd (q % 3) := by
  rw [gatherBnd, forN_nest3 v.npcen (gatherStep v)]
  refine forN_invariant (3 * v.npcen) _ _
    (fun n (st : Nat × (Nat → Nat)) => st.1 = Nat.count (isB v) n ∧ ∀ q, q < n → isB v q →
      st.2 (Nat.count (isB v) q) = (v.sub (q / 3)).bnd (q % 3))
    ⟨by simp, fun q h => absurd h (by omega)⟩ ?_
  rintro m ⟨c, idx⟩ _ ⟨h1, h2⟩
  simp only [gatherStep]
  cases hI : (v.sub (m / 3)).internal (m % 3) <;>
    simp only [Bool.false_eq_true, if_false, if_true]
  · refine ⟨?_, fun q hq hb => ?_⟩
    · rw [Nat.count_succ, if_pos (show isB v m from hI), ← h1]
    · rcases Nat.lt_succ_iff_lt_or_eq.1 hq with h | h
      · have : Nat.count (isB v) q < Nat.count (isB v) m := Nat.count_strict_mono hb h
        rw [wr_other _ _ (by rw [show c = Nat.count (isB v) m from h1]; omega)]
        exact h2 q h hb
      · subst h; rw [show c = Nat.count (isB v) q from h1, wr_same]
  · refine ⟨?_, fun q hq hb => ?_⟩
    · rw [Nat.count_succ, if_neg (by simp [isB, hI]), ← h1]; rfl
    · rcases Nat.lt_succ_iff_lt_or_eq.1 hq with h | h
      · exact h2 q h hb
      · subst h; simp [isB, hI] at hb

theorem idxBnd_eq (v : Vtx) (i f : Nat) (h : InRange v i f) (hb : (v.sub i).internal f = false) :
    idxBnd v (Nat.count (isB v) (3 * i + f)) = (v.sub i).bnd f := by
  have := (gatherBnd_inv v).2 (3 * i + f) (by have := h.1; have := h.2; omega)
    (by rw [isB, q_div h.2, q_mod h.2]; exact hb)
  rw [q_div h.2, q_mod h.2] at this
  exact this

/-- Position of subface `q` in the reordered face list. -/
def posq (v : Vtx) (q : Nat) : Nat :=
  if (v.sub (q / 3)).internal (q % 3) then (v.sub (q / 3)).link (q % 3)
  else if (v.sub (q / 3)).up (q % 3) then v.nIntFaces + Nat.count (isBU v) q
  else v.nIntFaces + (countBnd v).1 + Nat.count (isBD v) q

def fluxq (v : Vtx) (q : Nat) : Nat :=
  if (v.sub (q / 3)).internal (q % 3) then (v.sub (q / 3)).link (q % 3)
  else if (v.sub (q / 3)).up (q % 3) then v.nIntFaces + Nat.count (isBU v) q
  else v.nIntFaces + Nat.count (isBD v) q

theorem count_add (v : Vtx) (n : Nat) :
    Nat.count (isB v) n = Nat.count (isBU v) n + Nat.count (isBD v) n := by
  induction n with
  | zero => simp
  | succ n ih =>
    rw [Nat.count_succ, Nat.count_succ, Nat.count_succ, ih]
    by_cases h : isB v n
    · cases hU : (v.sub (n / 3)).up (n % 3)
      · rw [if_pos h, if_neg (by simp [isBU, hU]), if_pos ⟨h, hU⟩]; omega
      · rw [if_pos h, if_pos ⟨h, hU⟩, if_neg (by simp [isBD, hU])]; omega
    · rw [if_neg h, if_neg (fun a => h a.1), if_neg (fun a => h a.1)]; rfl

theorem sum_flat (n : Nat) (g : Nat → Nat → Nat) :
    ∑ i ∈ Finset.range n, ∑ f ∈ Finset.range 3, g i f
      = ∑ q ∈ Finset.range (3 * n), g (q / 3) (q % 3) := by
  induction n with
  | zero => simp
  | succ n ih =>
    rw [Finset.sum_range_succ, ih, show 3 * (n + 1) = 3 * n + 1 + 1 + 1 by omega,
      Finset.sum_range_succ, Finset.sum_range_succ, Finset.sum_range_succ,
      Finset.sum_range_succ, Finset.sum_range_succ, Finset.sum_range_succ, Finset.sum_range_zero]
    have h0 : (3 * n) / 3 = n ∧ (3 * n) % 3 = 0 := by omega
    have h1 : (3 * n + 1) / 3 = n ∧ (3 * n + 1) % 3 = 1 := by omega
    have h2 : (3 * n + 1 + 1) / 3 = n ∧ (3 * n + 1 + 1) % 3 = 2 := by omega
    rw [h0.1, h0.2, h1.1, h1.2, h2.1, h2.2]; omega

theorem nBnd_count {v : Vtx} (wf : WellFormed v) : v.nBnd = Nat.count (isB v) (3 * v.npcen) := by
  rw [wf.nBnd_eq, sum_flat, Nat.count_eq_card_filter_range, Finset.card_filter]
  refine Finset.sum_congr rfl fun q _ => ?_
  cases hI : (v.sub (q / 3)).internal (q % 3) <;> simp [isB, hI]

theorem nBnd_split {v : Vtx} (wf : WellFormed v) : v.nBnd = (countBnd v).1 + (countBnd v).2 := by
  rw [nBnd_count wf, countBnd_eq, count_add]

theorem nIn_eq {v : Vtx} (wf : WellFormed v) : nIn v = v.nIntFaces := by
  have h1 := nBnd_split wf
  have h2 := wf.nFaces_eq
  unfold nIn nDirUp nDirDn nNeuUp nNeuDn
  split <;> omega

section wf
variable {v : Vtx} (wf : WellFormed v)

theorem inR {q : Nat} (h : q < 3 * v.npcen) : InRange v (q / 3) (q % 3) := ⟨by omega, by omega⟩

theorem inR_q {i f : Nat} (h : InRange v i f) : 3 * i + f < 3 * v.npcen := by
  have := h.1; have := h.2; omega

include wf

/-- Positions determine faces. -/
theorem posq_inj {q q' : Nat} (hq : q < 3 * v.npcen) (hq' : q' < 3 * v.npcen)
    (h : posq v q = posq v q') :
    (v.sub (q / 3)).face (q % 3) = (v.sub (q' / 3)).face (q' % 3) := by
  have e := countBnd_eq v
  have l1 := wf.link_lt _ _ (inR hq)
  have l2 := wf.link_lt _ _ (inR hq')
  unfold posq at h
  cases hI : (v.sub (q / 3)).internal (q % 3) <;> cases hI' : (v.sub (q' / 3)).internal (q' % 3) <;>
  simp only [hI, hI', Bool.false_eq_true, if_false, if_true, forall_true_left] at h l1 l2
  · have bu : ∀ x, x < 3 * v.npcen → isBU v x →
        Nat.count (isBU v) x < (countBnd v).1 := by
      intro x hx hb; rw [e]; exact Nat.count_strict_mono hb hx
    cases hU : (v.sub (q / 3)).up (q % 3) <;> cases hU' : (v.sub (q' / 3)).up (q' % 3) <;>
    simp only [hU, hU', Bool.false_eq_true, if_false, if_true] at h
    · have : q = q' := Nat.count_injective (p := isBD v) ⟨hI, hU⟩ ⟨hI', hU'⟩ (by omega)
      rw [this]
    · have := bu q' hq' ⟨hI', hU'⟩; omega
    · have := bu q hq ⟨hI, hU⟩; omega
    · have : q = q' := Nat.count_injective (p := isBU v) ⟨hI, hU⟩ ⟨hI', hU'⟩ (by omega)
      rw [this]
  · split at h <;> omega
  · split at h <;> omega
  · exact (wf.link_iff _ _ _ _ (inR hq) (inR hq') hI hI').1 h

theorem numberFluxes_inv : ((numberFluxes v v.ids0).nUp = (countBnd v).1 ∧
      (numberFluxes v v.ids0).nDn = (countBnd v).2) ∧
    (∀ q, q < 3 * v.npcen → (numberFluxes v v.ids0).idx (q / 3) (q % 3) = fluxq v q) ∧
    ∀ q, q < 3 * v.npcen →
      (numberFluxes v v.ids0).ids (posq v q) = (v.sub (q / 3)).face (q % 3) := by
  have hcb := countBnd_eq v
  rw [numberFluxes, forN_nest3 v.npcen (fluxStep v)]
  have := forN_invariant (3 * v.npcen) (fun q s => fluxStep v (q / 3) (q % 3) s)
    (⟨0, 0, fun _ _ => 0, v.ids0⟩ : FluxNum)
    (fun n st => (st.nUp = Nat.count (isBU v) n ∧ st.nDn = Nat.count (isBD v) n) ∧
      (∀ q, q < n → st.idx (q / 3) (q % 3) = fluxq v q) ∧
      ∀ q, q < n → st.ids (posq v q) = (v.sub (q / 3)).face (q % 3))
    ⟨⟨by simp, by simp⟩, fun q h => absurd h (by omega), fun q h => absurd h (by omega)⟩ ?_
  · rw [hcb]; exact this
  rintro m st hm ⟨⟨hu, hd⟩, hi, hids⟩
  have key : ∀ (P : Nat) (hP : P = posq v m) (q : Nat), q < m + 1 →
      wr st.ids P ((v.sub (m / 3)).face (m % 3)) (posq v q) = (v.sub (q / 3)).face (q % 3) := by
    intro P hP q hq
    rw [hP]
    by_cases hx : posq v q = posq v m
    · rw [hx, wr_same]; exact (posq_inj wf (by omega) hm hx).symm
    · rw [wr_other _ _ hx]
      rcases Nat.lt_succ_iff_lt_or_eq.1 hq with h | h
      · exact hids q h
      · exact absurd (by rw [h]) hx
  have keyI : ∀ (P : Nat) (hP : P = fluxq v m) (q : Nat), q < m + 1 →
      (if q / 3 = m / 3 ∧ q % 3 = m % 3 then P else st.idx (q / 3) (q % 3)) = fluxq v q := by
    intro P hP q hq
    rcases Nat.lt_succ_iff_lt_or_eq.1 hq with h | h
    · rw [if_neg (pair_ne' h)]; exact hi q h
    · subst h; rw [if_pos ⟨rfl, rfl⟩, hP]
  have hunk : unk v (m / 3) (m % 3) = if (v.sub (m / 3)).internal (m % 3) then
      (v.sub (m / 3)).link (m % 3) else v.nIntFaces + Nat.count (isB v) m := by
    rw [unk_eq v _ _ (inR hm), show 3 * (m / 3) + m % 3 = m by omega]
  cases hI : (v.sub (m / 3)).internal (m % 3)
  · cases hU : (v.sub (m / 3)).up (m % 3)
    · simp only [fluxStep, hI, hU, Bool.false_eq_true, if_false]
      refine ⟨⟨?_, ?_⟩, keyI _ ?_, key _ ?_⟩
      · rw [Nat.count_succ, if_neg (by simp [isBU, hU]), hu]; rfl
      · rw [Nat.count_succ, if_pos ⟨hI, hU⟩, hd]
      · simp only [fluxq, hI, hU, Bool.false_eq_true, if_false]; rw [hd]
      · simp only [posq, hI, hU, Bool.false_eq_true, if_false]; rw [hd]
    · simp only [fluxStep, hI, hU, Bool.false_eq_true, if_false, if_true]
      refine ⟨⟨?_, ?_⟩, keyI _ ?_, key _ ?_⟩
      · rw [Nat.count_succ, if_pos ⟨hI, hU⟩, hu]
      · rw [Nat.count_succ, if_neg (by simp [isBD, hU]), hd]; rfl
      · simp only [fluxq, hI, hU, Bool.false_eq_true, if_false, if_true]; rw [hu]
      · simp only [posq, hI, hU, Bool.false_eq_true, if_false, if_true]; rw [hu]
  · simp only [hI, if_true] at hunk
    simp only [fluxStep, hI, if_true]
    refine ⟨⟨?_, ?_⟩, keyI _ ?_, key _ ?_⟩
    · rw [Nat.count_succ, if_neg (by simp [isBU, isB, hI]), hu]; rfl
    · rw [Nat.count_succ, if_neg (by simp [isBD, isB, hI]), hd]; rfl
    · simp only [fluxq, hI, if_true]; exact hunk
    · simp only [posq, hI, if_true]; exact hunk

theorem flux_eq {i f : Nat} (h : InRange v i f) : flux v i f = fluxq v (3 * i + f) := by
  have := (numberFluxes_inv wf).2.1 _ (inR_q h)
  rw [q_div h.2, q_mod h.2] at this
  exact this

theorem vertexFaces_pos {i f : Nat} (h : InRange v i f) :
    vertexFaces v (posq v (3 * i + f)) = (v.sub i).face f := by
  have := (numberFluxes_inv wf).2.2 _ (inR_q h)
  rw [q_div h.2, q_mod h.2] at this
  exact this

theorem unk_face {i f i' f' : Nat} (h : InRange v i f) (h' : InRange v i' f') :
    unk v i f = unk v i' f' ↔ (v.sub i).face f = (v.sub i').face f' := by
  rw [unk_eq v i f h, unk_eq v i' f' h']
  have l1 := wf.link_lt _ _ h
  have l2 := wf.link_lt _ _ h'
  cases hI : (v.sub i).internal f <;> cases hI' : (v.sub i').internal f' <;>
    simp only [hI, hI', Bool.false_eq_true, if_false, if_true, forall_true_left] at l1 l2 ⊢
  · constructor
    · intro e
      have : 3 * i + f = 3 * i' + f' := Nat.count_injective (p := isB v)
        (by rw [isB, q_div h.2, q_mod h.2]; exact hI)
        (by rw [isB, q_div h'.2, q_mod h'.2]; exact hI') (by omega)
      have h2 := h.2; have h2' := h'.2
      have e1 : i = i' := by omega
      have e2 : f = f' := by omega
      rw [e1, e2]
    · intro e
      obtain ⟨e1, e2⟩ := wf.bnd_once _ _ _ _ h h' hI e
      rw [e1, e2]
  · refine ⟨fun e => by omega, fun e => ?_⟩
    have := wf.internal_face _ _ _ _ h h' e
    rw [hI, hI'] at this; exact absurd this (by decide)
  · refine ⟨fun e => by omega, fun e => ?_⟩
    have := wf.internal_face _ _ _ _ h h' e
    rw [hI, hI'] at this; exact absurd this (by decide)
  · exact wf.link_iff _ _ _ _ h h' hI hI'

theorem unk_lt {i f : Nat} (h : InRange v i f) : unk v i f < v.nIntFaces + v.nBnd := by
  rw [unk_eq v i f h]
  cases hI : (v.sub i).internal f
  · simp only [Bool.false_eq_true, if_false]
    rw [nBnd_count wf]
    have := Nat.count_strict_mono (p := isB v) (m := 3 * i + f)
      (by rw [isB, q_div h.2, q_mod h.2]; exact hI) (inR_q h)
    omega
  · simp only [if_true]
    have := wf.link_lt _ _ h hI; omega

theorem fluxq_inj {q q' : Nat} (hq : q < 3 * v.npcen) (hq' : q' < 3 * v.npcen)
    (hu : (v.sub (q / 3)).up (q % 3) = (v.sub (q' / 3)).up (q' % 3))
    (h : fluxq v q = fluxq v q') : q = q' := by
  have l1 := wf.link_lt _ _ (inR hq)
  have l2 := wf.link_lt _ _ (inR hq')
  unfold fluxq at h
  cases hI : (v.sub (q / 3)).internal (q % 3) <;> cases hI' : (v.sub (q' / 3)).internal (q' % 3) <;>
  simp only [hI, hI', Bool.false_eq_true, if_false, if_true, forall_true_left] at h l1 l2
  · cases hU : (v.sub (q / 3)).up (q % 3) <;> rw [hU] at hu <;>
    simp only [hU, ← hu, Bool.false_eq_true, if_false, if_true] at h
    · exact Nat.count_injective (p := isBD v) ⟨hI, hU⟩ ⟨hI', hu.symm⟩ (by omega)
    · exact Nat.count_injective (p := isBU v) ⟨hI, hU⟩ ⟨hI', hu.symm⟩ (by omega)
  · split at h <;> omega
  · split at h <;> omega
  · have e := (wf.link_iff _ _ _ _ (inR hq) (inR hq') hI hI').1 h
    have := wf.face_inj _ _ _ _ (inR hq) (inR hq') e hu
    omega

end wf

/-- The matrices of one side. -/
def Cw (w : Bool) (st : CF) : Nat → Nat → ℝ := if w then st.Cup else st.Cdn
def Fw (w : Bool) (st : CF) : Nat → Nat → ℝ := if w then st.Fup else st.Fdn

theorem Cw_step (w : Bool) (v : Vtx) (i f : Nat) (st : CF) :
    Cw w (cfStep v i f st) = if (v.sub i).up f = w then
      wr2 (wr2 (wr2 (Cw w st) (flux v i f) (unk v i 0) (-(v.sub i).G f 0))
        (flux v i f) (unk v i 1) (-(v.sub i).G f 1)) (flux v i f) (unk v i 2) (-(v.sub i).G f 2)
      else Cw w st := by
  unfold cfStep Cw
  cases w <;> cases (v.sub i).up f <;> simp

theorem Fw_step (w : Bool) (v : Vtx) (i f : Nat) (st : CF) :
    Fw w (cfStep v i f st) = if (v.sub i).up f = w then
      wr2 (Fw w st) (flux v i f) i (-(v.sub i).G f 0 - (v.sub i).G f 1 - (v.sub i).G f 2)
      else Fw w st := by
  unfold cfStep Fw
  cases w <;> cases (v.sub i).up f <;> simp

/-- Row written for subface `f` of subcell `i`. -/
def rowC (v : Vtx) (i f k : Nat) : ℝ :=
  if k = unk v i 2 then -(v.sub i).G f 2 else if k = unk v i 1 then -(v.sub i).G f 1
  else if k = unk v i 0 then -(v.sub i).G f 0 else 0

theorem candF_rows {v : Vtx} (wf : WellFormed v) (w : Bool) :
    ∀ q, q < 3 * v.npcen → (v.sub (q / 3)).up (q % 3) = w →
      (∀ k, Cw w (candF v) (fluxq v q) k = rowC v (q / 3) (q % 3) k) ∧
      (∀ j, Fw w (candF v) (fluxq v q) j = if j = q / 3 then
        -(v.sub (q / 3)).G (q % 3) 0 - (v.sub (q / 3)).G (q % 3) 1 - (v.sub (q / 3)).G (q % 3) 2
        else 0) := by
  have := forN_invariant (3 * v.npcen) (fun q s => cfStep v (q / 3) (q % 3) s)
    (⟨fun _ _ => 0, fun _ _ => 0, fun _ _ => 0, fun _ _ => 0⟩ : CF)
    (fun n st =>
      (∀ q, q < n → (v.sub (q / 3)).up (q % 3) = w →
        (∀ k, Cw w st (fluxq v q) k = rowC v (q / 3) (q % 3) k) ∧
        (∀ j, Fw w st (fluxq v q) j = if j = q / 3 then
          -(v.sub (q / 3)).G (q % 3) 0 - (v.sub (q / 3)).G (q % 3) 1 - (v.sub (q / 3)).G (q % 3) 2
          else 0)) ∧
      (∀ r, (∀ q, q < n → (v.sub (q / 3)).up (q % 3) = w → fluxq v q ≠ r) →
        (∀ k, Cw w st r k = 0) ∧ (∀ j, Fw w st r j = 0)))
    ⟨fun q h => absurd h (by omega), fun r _ => by unfold Cw Fw; cases w <;> simp⟩ ?_
  · have e : candF v = forN (3 * v.npcen) (fun q s => cfStep v (q / 3) (q % 3) s)
        (⟨fun _ _ => 0, fun _ _ => 0, fun _ _ => 0, fun _ _ => 0⟩ : CF) := by
      rw [candF, forN_nest3 v.npcen (cfStep v)]
    rw [e]
    exact this.1
  rintro m st hm ⟨h1, h2⟩
  have hf : flux v (m / 3) (m % 3) = fluxq v m := by
    rw [flux_eq wf (inR hm), show 3 * (m / 3) + m % 3 = m by omega]
  rw [Cw_step, Fw_step, hf]
  by_cases hU : (v.sub (m / 3)).up (m % 3) = w
  · rw [if_pos hU, if_pos hU]
    refine ⟨fun q hq hu => ?_, fun r hr => ?_⟩
    · rcases Nat.lt_succ_iff_lt_or_eq.1 hq with h | h
      · have hne : fluxq v q ≠ fluxq v m := fun e => by
          have := fluxq_inj wf (by omega) hm (by rw [hu, hU]) e
          omega
        have := h1 q h hu
        refine ⟨fun k => ?_, fun j => ?_⟩
        · simp only [wr2, hne, false_and, if_false]; exact this.1 k
        · simp only [wr2, hne, false_and, if_false]; exact this.2 j
      · subst h
        have := h2 (fluxq v q) (fun q' hq' hu' e => by
          have := fluxq_inj wf (by omega) hm (by rw [hu', hU]) e
          omega)
        refine ⟨fun k => ?_, fun j => ?_⟩
        · simp only [wr2, true_and, rowC]
          rw [this.1]
        · simp only [wr2, true_and]
          rw [this.2]
    · have hne : r ≠ fluxq v m := fun e => hr m (by omega) hU e.symm
      have := h2 r (fun q hq => hr q (by omega))
      refine ⟨fun k => ?_, fun j => ?_⟩
      · simp only [wr2, hne, false_and, if_false]; exact this.1 k
      · simp only [wr2, hne, false_and, if_false]; exact this.2 j
  · rw [if_neg hU, if_neg hU]
    refine ⟨fun q hq hu => ?_, fun r hr => h2 r (fun q hq => hr q (by omega))⟩
    rcases Nat.lt_succ_iff_lt_or_eq.1 hq with h | h
    · exact h1 q h hu
    · subst h; exact absurd hu hU

/-- Side `w` of row `r` applied to interface pressures `P` and cell pressures `u`. -/
def L (v : Vtx) (w : Bool) (r : Nat) (P u : Nat → ℝ) : ℝ :=
  ∑ k ∈ Finset.range (v.nIntFaces + v.nBnd), Cw w (candF v) r k * P k
    - ∑ j ∈ Finset.range v.npcen, Fw w (candF v) r j * u j

theorem L_face {v : Vtx} (wf : WellFormed v) {i f : Nat} (h : InRange v i f) (P u : Nat → ℝ) :
    L v ((v.sub i).up f) (flux v i f) P u
      = ∑ k ∈ Finset.range 3, (v.sub i).G f k * (u i - P (unk v i k)) := by
  have hr := candF_rows wf ((v.sub i).up f) (3 * i + f) (inR_q h) (by rw [q_div h.2, q_mod h.2])
  rw [q_div h.2, q_mod h.2] at hr
  have d : ∀ a b, a < 3 → b < 3 → unk v i a = unk v i b → a = b := fun a b ha hb e =>
    wf.sub_inj i a b ⟨h.1, ha⟩ ⟨h.1, hb⟩ ((unk_face wf ⟨h.1, ha⟩ ⟨h.1, hb⟩).1 e)
  have hC : ∀ k, rowC v i f k = (if k = unk v i 0 then -(v.sub i).G f 0 else 0)
      + (if k = unk v i 1 then -(v.sub i).G f 1 else 0)
      + (if k = unk v i 2 then -(v.sub i).G f 2 else 0) := by
    intro k
    have d01 : unk v i 0 ≠ unk v i 1 := fun e => absurd (d 0 1 (by omega) (by omega) e) (by omega)
    have d02 : unk v i 0 ≠ unk v i 2 := fun e => absurd (d 0 2 (by omega) (by omega) e) (by omega)
    have d12 : unk v i 1 ≠ unk v i 2 := fun e => absurd (d 1 2 (by omega) (by omega) e) (by omega)
    unfold rowC
    by_cases h2 : k = unk v i 2
    · subst h2; simp [d02.symm, d12.symm]
    · by_cases h1 : k = unk v i 1
      · subst h1; simp [d12, d01.symm]
      · simp [h1, h2]
  have u0 := unk_lt wf (i := i) (f := 0) ⟨h.1, by omega⟩
  have u1 := unk_lt wf (i := i) (f := 1) ⟨h.1, by omega⟩
  have u2 := unk_lt wf (i := i) (f := 2) ⟨h.1, by omega⟩
  rw [L, flux_eq wf h]
  simp only [hr.1, hr.2, hC, add_mul, ite_mul, zero_mul, Finset.sum_add_distrib,
    Finset.sum_ite_eq', Finset.mem_range, u0, u1, u2, h.1, if_true]
  rw [Finset.sum_range_succ, Finset.sum_range_succ, Finset.sum_range_succ, Finset.sum_range_zero]
  ring

/-! ### The local system -/

/-- The values the columns of B and of the transmissibilities stand for. -/
def wval (v : Vtx) (u pb : Nat → ℝ) (j : Nat) : ℝ :=
  if j < v.npcen then u j else pb (idxBnd v (j - v.npcen))

def wvec (v : Vtx) (u pb : Nat → ℝ) : Fin (v.npcen + nDir v) → ℝ := fun j => wval v u pb j

/-- All interface pressures: the unknowns of the local system and the given ones. -/
def full (v : Vtx) (x : Fin (nSys v) → ℝ) (pb : Nat → ℝ) (k : Nat) : ℝ :=
  if h : k < nSys v then x ⟨k, h⟩ else pb (idxBnd v (k - nIn v))

section sys
variable {v : Vtx} (wf : WellFormed v)

theorem colA_eq (c : Fin (nSys v)) : colA v c = c := by
  have hc := c.2
  unfold colA
  split
  · rfl
  · rename_i h
    unfold nSys nNeu at hc
    unfold nDir
    split at hc
    · omega
    · rename_i hd; rw [if_neg hd]; omega

include wf

theorem split_sum (g : Nat → ℝ) (x : Fin (nSys v) → ℝ) (pb : Nat → ℝ) :
    ∑ k ∈ Finset.range (v.nIntFaces + v.nBnd), g k * full v x pb k
      = ∑ c : Fin (nSys v), g (colA v c) * x c
        + ∑ j ∈ Finset.range (nDir v), g (nIn v + j) * pb (idxBnd v j) := by
  have e1 : v.nIntFaces + v.nBnd = nSys v + nDir v := by
    rw [← nIn_eq wf]; unfold nSys nNeu nDir; split <;> omega
  rw [e1, Finset.sum_range_add]
  congr 1
  · rw [← Fin.sum_univ_eq_sum_range (fun k => g k * full v x pb k)]
    refine Finset.sum_congr rfl fun c _ => ?_
    rw [colA_eq, full, dif_pos c.2]
  · refine Finset.sum_congr rfl fun j hj => ?_
    have hs : nSys v = nIn v := by
      have := Finset.mem_range.1 hj
      unfold nDir at this; unfold nSys nNeu
      split at this
      · rename_i hd; rw [if_pos hd]; rfl
      · omega
    rw [full, dif_neg (by omega), hs, show nIn v + j - nIn v = j by omega]

omit wf in
theorem sum_cols (e : Nat → ℝ) (e' : Nat → ℝ) (u pb : Nat → ℝ) :
    ∑ j : Fin (v.npcen + nDir v),
        (if j.1 < v.npcen then e j else e' (j - v.npcen)) * wvec v u pb j
      = ∑ j ∈ Finset.range v.npcen, e j * u j
        + ∑ j ∈ Finset.range (nDir v), e' j * pb (idxBnd v j) := by
  unfold wvec
  rw [Fin.sum_univ_eq_sum_range
    (fun j => (if j < v.npcen then e j else e' (j - v.npcen)) * wval v u pb j), Finset.sum_range_add]
  congr 1
  · refine Finset.sum_congr rfl fun j hj => ?_
    have := Finset.mem_range.1 hj
    rw [if_pos this, wval, if_pos this]
  · refine Finset.sum_congr rfl fun j hj => ?_
    rw [if_neg (by omega), wval, if_neg (by omega), show v.npcen + j - v.npcen = j by omega]

theorem aMat_row (x : Fin (nSys v) → ℝ) (u pb : Nat → ℝ) (r : Fin (nSys v)) :
    (aMat v).mulVec x r - (bMat v).mulVec (wvec v u pb) r =
      if r.1 < nIn v then -L v true r (full v x pb) u + L v false r (full v x pb) u
      else if r.1 < nIn v + nNeuUp v then -L v true (nIn v + (r - nIn v)) (full v x pb) u
      else -L v false (nIn v + (r - nIn v - nNeuUp v)) (full v x pb) u := by
  have hr := r.2
  unfold L
  rw [split_sum wf, split_sum wf, split_sum wf, split_sum wf]
  simp only [Matrix.mulVec, dotProduct, aMat, bMat, aEntry, bEntry]
  have hz : ¬ r.1 < nIn v → nDirUp v = 0 ∧ nDirDn v = 0 ∧ nDir v = 0 := by
    intro h
    unfold nSys nNeu at hr
    split at hr
    · omega
    · rename_i hd; unfold nDirUp nDirDn nDir; simp [hd]
  by_cases h1 : r.1 < nIn v
  · simp only [h1, if_true]
    rw [sum_cols (fun j => -(candF v).Fup r j + (candF v).Fdn r j)
      (fun j => (candF v).Cup r (nIn v + j) - (candF v).Cdn r (nIn v + j))]
    simp only [Cw, Fw, if_true, Bool.false_eq_true, if_false, add_mul, sub_mul, neg_mul,
      Finset.sum_add_distrib, Finset.sum_sub_distrib, Finset.sum_neg_distrib]
    ring
  · obtain ⟨z1, z2, z3⟩ := hz h1
    simp only [h1, if_false, z1, z2, Nat.add_zero]
    by_cases h2 : r.1 < nIn v + nNeuUp v
    · simp only [h2, if_true]
      rw [sum_cols (fun j => -(candF v).Fup (nIn v + (r - nIn v)) j)
        (fun j => -(candF v).Cup (nIn v + (r - nIn v)) (nIn v + j))]
      simp only [z3, Finset.sum_range_zero, Cw, Fw, if_true, neg_mul, Finset.sum_neg_distrib]
      ring
    · simp only [h2, if_false]
      rw [sum_cols (fun j => -(candF v).Fdn (nIn v + (r - nIn v - nNeuUp v)) j)
        (fun j => -(candF v).Cdn (nIn v + (r - nIn v - nNeuUp v)) (nIn v + j))]
      simp only [z3, Finset.sum_range_zero, Cw, Fw, Bool.false_eq_true, if_false, neg_mul,
        Finset.sum_neg_distrib]
      ring

theorem transTimes_row (X : Matrix (Fin (nSys v)) (Fin (v.npcen + nDir v)) ℝ) (u pb : Nat → ℝ)
    (i : Nat) :
    transTimes v (transEntry v X) u pb i =
      if i < nIn v + nDirUp v then L v true i (full v (X.mulVec (wvec v u pb)) pb) u
      else L v false (i - nDirUp v) (full v (X.mulVec (wvec v u pb)) pb) u := by
  unfold L
  rw [split_sum wf, split_sum wf]
  have key : ∀ (c : Nat → ℝ) (e e' : Nat → ℝ),
      ∑ j : Fin (v.npcen + nDir v), ((∑ k : Fin (nSys v), c (colA v k) * X k j)
          + (if j.1 < v.npcen then e j else e' (j - v.npcen))) *
          (if j.1 < v.npcen then u j else pb (idxBnd v (j - v.npcen)))
        = ∑ k : Fin (nSys v), c (colA v k) * X.mulVec (wvec v u pb) k
          + (∑ j ∈ Finset.range v.npcen, e j * u j
            + ∑ j ∈ Finset.range (nDir v), e' j * pb (idxBnd v j)) := by
    intro c e e'
    rw [← sum_cols e e' u pb]
    show ∑ j : Fin (v.npcen + nDir v), ((∑ k : Fin (nSys v), c (colA v k) * X k j)
          + (if j.1 < v.npcen then e j else e' (j - v.npcen))) * wvec v u pb j = _
    simp only [add_mul, Finset.sum_add_distrib]
    congr 1
    simp only [Finset.sum_mul, Matrix.mulVec, dotProduct, Finset.mul_sum]
    rw [Finset.sum_comm]
    refine Finset.sum_congr rfl fun k _ => Finset.sum_congr rfl fun j _ => by ring
  unfold transTimes transEntry
  by_cases h1 : i < nIn v
  · simp only [h1, if_true]
    rw [if_pos (by omega), key ((candF v).Cup i) (fun j => -(candF v).Fup i j)
      (fun j => (candF v).Cup i (nIn v + j))]
    simp only [Cw, Fw, if_true, neg_mul, Finset.sum_neg_distrib]
    ring
  · by_cases h2 : i < nIn v + nDirUp v
    · simp only [h1, h2, if_true, if_false]
      rw [key ((candF v).Cup i) (fun j => -(candF v).Fup i j)
        (fun j => (candF v).Cup i (nIn v + j))]
      simp only [Cw, Fw, if_true, neg_mul, Finset.sum_neg_distrib]
      ring
    · simp only [h1, h2, if_false]
      rw [key ((candF v).Cdn (i - nDirUp v)) (fun j => -(candF v).Fdn (i - nDirUp v) j)
        (fun j => (candF v).Cdn (i - nDirUp v) (nIn v + j))]
      simp only [Cw, Fw, Bool.false_eq_true, if_false, neg_mul, Finset.sum_neg_distrib]
      ring

end sys

/-! ### Face pressures and interface pressures -/

section bal
variable {v : Vtx} (wf : WellFormed v)

theorem count_onto (p : Nat → Prop) [DecidablePred p] (n k : Nat) (h : k < Nat.count p n) :
    ∃ q, q < n ∧ p q ∧ Nat.count p q = k := by
  induction n with
  | zero => simp at h
  | succ n ih =>
    rw [Nat.count_succ] at h
    by_cases hp : p n
    · rw [if_pos hp] at h
      by_cases hk : k < Nat.count p n
      · obtain ⟨q, a, b⟩ := ih hk; exact ⟨q, by omega, b⟩
      · exact ⟨n, by omega, hp, by omega⟩
    · rw [if_neg hp] at h
      obtain ⟨q, a, b⟩ := ih h; exact ⟨q, by omega, b⟩

open Classical in
/-- Face pressures from interface pressures. -/
noncomputable def toFace (v : Vtx) (P : Nat → ℝ) (y : Nat) : ℝ :=
  if h : ∃ a : Nat × Nat, InRange v a.1 a.2 ∧ (v.sub a.1).face a.2 = y then
    P (unk v h.choose.1 h.choose.2) else 0

open Classical in
/-- Interface pressures from face pressures. -/
noncomputable def fromFace (v : Vtx) (p : Nat → ℝ) (k : Nat) : ℝ :=
  if h : ∃ a : Nat × Nat, InRange v a.1 a.2 ∧ unk v a.1 a.2 = k then
    p ((v.sub h.choose.1).face h.choose.2) else 0

include wf

theorem toFace_eq (P : Nat → ℝ) {i f : Nat} (h : InRange v i f) :
    toFace v P ((v.sub i).face f) = P (unk v i f) := by
  have ex : ∃ a : Nat × Nat, InRange v a.1 a.2 ∧ (v.sub a.1).face a.2 = (v.sub i).face f :=
    ⟨(i, f), h, rfl⟩
  rw [toFace, dif_pos ex]
  rw [(unk_face wf ex.choose_spec.1 h).2 ex.choose_spec.2]

theorem fromFace_eq (p : Nat → ℝ) {i f : Nat} (h : InRange v i f) :
    fromFace v p (unk v i f) = p ((v.sub i).face f) := by
  have ex : ∃ a : Nat × Nat, InRange v a.1 a.2 ∧ unk v a.1 a.2 = unk v i f :=
    ⟨(i, f), h, rfl⟩
  rw [fromFace, dif_pos ex]
  rw [(unk_face wf ex.choose_spec.1 h).1 ex.choose_spec.2]

theorem L_oneSided {i f : Nat} (h : InRange v i f) (P p u : Nat → ℝ)
    (hP : ∀ k, k < 3 → P (unk v i k) = p ((v.sub i).face k)) :
    L v ((v.sub i).up f) (flux v i f) P u = oneSided (v.sub i) (u i) p f := by
  rw [L_face wf h, oneSided]
  refine Finset.sum_congr rfl fun k hk => ?_
  rw [hP k (Finset.mem_range.1 hk)]

theorem unk_bnd {i f : Nat} (h : InRange v i f) (hb : (v.sub i).internal f = false) :
    unk v i f = nIn v + Nat.count (isB v) (3 * i + f) := by
  rw [unk_eq v i f h, hb, nIn_eq wf]; simp

/-- A solution of the local system makes the face pressures balanced. -/
theorem balanced_of_solves (x : Fin (nSys v) → ℝ) (u pb : Nat → ℝ)
    (hx : (aMat v).mulVec x = (bMat v).mulVec (wvec v u pb)) :
    Balanced v u pb (toFace v (full v x pb)) := by
  have row : ∀ r : Fin (nSys v), (if r.1 < nIn v then -L v true r (full v x pb) u
        + L v false r (full v x pb) u
      else if r.1 < nIn v + nNeuUp v then -L v true (nIn v + (r - nIn v)) (full v x pb) u
      else -L v false (nIn v + (r - nIn v - nNeuUp v)) (full v x pb) u) = 0 := by
    intro r
    rw [← aMat_row wf, hx, sub_self]
  have hL : ∀ i f, InRange v i f → L v ((v.sub i).up f) (flux v i f) (full v x pb) u
      = oneSided (v.sub i) (u i) (toFace v (full v x pb)) f := fun i f h =>
    L_oneSided wf h _ _ _ fun k hk => (toFace_eq wf _ ⟨h.1, hk⟩).symm
  have hflux : ∀ i f, InRange v i f → (v.sub i).internal f = true → flux v i f = (v.sub i).link f := by
    intro i f h hI
    rw [flux_eq wf h, fluxq, q_div h.2, q_mod h.2, hI]; simp
  refine ⟨?_, ?_⟩
  · intro i f i' f' h h' hI e
    have hI' : (v.sub i').internal f' = true := by
      rw [← wf.internal_face _ _ _ _ h h' e]; exact hI
    have hl := (wf.link_iff _ _ _ _ h h' hI hI').2 e
    have hlt := wf.link_lt _ _ h hI
    rw [← nIn_eq wf] at hlt
    have hr := row ⟨(v.sub i).link f, by unfold nSys; omega⟩
    simp only [hlt, if_true] at hr
    have e1 := hL i f h
    have e2 := hL i' f' h'
    rw [hflux i f h hI] at e1
    rw [hflux i' f' h' hI', ← hl] at e2
    cases hU : (v.sub i).up f <;> cases hU' : (v.sub i').up f' <;> rw [hU] at e1 <;> rw [hU'] at e2
    · rw [← e1, ← e2]
    · rw [← e1, ← e2]; linarith
    · rw [← e1, ← e2]; linarith
    · rw [← e1, ← e2]
  · intro i f h hb
    by_cases hd : v.dirichlet = true
    · rw [if_pos hd, toFace_eq wf _ h, unk_bnd wf h hb, full]
      have : nSys v = nIn v := by unfold nSys nNeu; rw [if_pos hd]; rfl
      rw [dif_neg (by omega), show nIn v + Nat.count (isB v) (3 * i + f) - nIn v
        = Nat.count (isB v) (3 * i + f) by omega, idxBnd_eq v i f h hb]
    · rw [if_neg hd, ← hL i f h, flux_eq wf h, fluxq, q_div h.2, q_mod h.2, hb]
      have hs : nSys v = nIn v + (countBnd v).1 + (countBnd v).2 := by
        unfold nSys nNeu; rw [if_neg hd, nBnd_split wf]; omega
      have hn : nNeuUp v = (countBnd v).1 := by unfold nNeuUp; rw [if_neg hd]
      have hc := countBnd_eq v
      have hbq : isB v (3 * i + f) := by rw [isB, q_div h.2, q_mod h.2]; exact hb
      cases hU : (v.sub i).up f <;> simp only [Bool.false_eq_true, if_false, if_true]
      · have hlt : Nat.count (isBD v) (3 * i + f) < (countBnd v).2 := by
          rw [hc]; exact Nat.count_strict_mono ⟨hbq, by rw [q_div h.2, q_mod h.2]; exact hU⟩ (inR_q h)
        have hr := row ⟨nIn v + (countBnd v).1 + Nat.count (isBD v) (3 * i + f), by omega⟩
        simp only at hr
        rw [if_neg (by omega), if_neg (by omega), hn, show nIn v + (countBnd v).1
          + Nat.count (isBD v) (3 * i + f) - nIn v - (countBnd v).1
          = Nat.count (isBD v) (3 * i + f) by omega] at hr
        rw [← nIn_eq wf]; linarith
      · have hlt : Nat.count (isBU v) (3 * i + f) < (countBnd v).1 := by
          rw [hc]; exact Nat.count_strict_mono ⟨hbq, by rw [q_div h.2, q_mod h.2]; exact hU⟩ (inR_q h)
        have hr := row ⟨nIn v + Nat.count (isBU v) (3 * i + f), by omega⟩
        simp only at hr
        rw [if_neg (by omega), if_pos (by omega), show nIn v
          + Nat.count (isBU v) (3 * i + f) - nIn v
          = Nat.count (isBU v) (3 * i + f) by omega] at hr
        rw [← nIn_eq wf]; linarith

/-- Balanced face pressures solve the local system. -/
theorem solves_of_balanced (p u pb : Nat → ℝ) (hp : Balanced v u pb p) :
    (aMat v).mulVec (fun c => fromFace v p c) = (bMat v).mulVec (wvec v u pb) ∧
    ∀ i f, InRange v i f → full v (fun c => fromFace v p c) pb (unk v i f)
      = p ((v.sub i).face f) := by
  have hP : ∀ i f, InRange v i f → full v (fun c => fromFace v p c) pb (unk v i f)
      = p ((v.sub i).face f) := by
    intro i f h
    rw [full]
    split
    · exact fromFace_eq wf p h
    · rename_i hn
      have hnI : (v.sub i).internal f = false := by
        by_contra hc
        have hI : (v.sub i).internal f = true := by simpa using hc
        have := wf.link_lt _ _ h hI
        rw [unk_eq v i f h, hI, if_pos rfl] at hn
        rw [← nIn_eq wf] at this
        unfold nSys at hn; omega
      have hd : v.dirichlet = true := by
        by_contra hd
        have := unk_lt wf h
        unfold nSys nNeu at hn
        rw [if_neg hd, nIn_eq wf] at hn
        omega
      have := hp.boundary i f h hnI
      rw [if_pos hd] at this
      rw [this, unk_bnd wf h hnI, show nIn v + Nat.count (isB v) (3 * i + f) - nIn v
        = Nat.count (isB v) (3 * i + f) by omega, idxBnd_eq v i f h hnI]
  refine ⟨?_, hP⟩
  have hL : ∀ i f, InRange v i f → L v ((v.sub i).up f) (flux v i f)
      (full v (fun c => fromFace v p c) pb) u = oneSided (v.sub i) (u i) p f := fun i f h =>
    L_oneSided wf h _ _ _ fun k hk => hP i k ⟨h.1, hk⟩
  have hflux : ∀ i f, InRange v i f → (v.sub i).internal f = true → flux v i f = (v.sub i).link f := by
    intro i f h hI
    rw [flux_eq wf h, fluxq, q_div h.2, q_mod h.2, hI]; simp
  funext r
  have hr := r.2
  have := aMat_row wf (fun c => fromFace v p c) u pb r
  suffices h0 : (aMat v).mulVec (fun c => fromFace v p c) r
      - (bMat v).mulVec (wvec v u pb) r = 0 by linarith
  rw [this]
  by_cases h1 : r.1 < nIn v
  · rw [if_pos h1]
    obtain ⟨i, f, h, hI, hl⟩ := wf.link_onto r (by rw [← nIn_eq wf]; exact h1)
    obtain ⟨i', f', h', e', hU'⟩ := wf.paired i f h hI
    have hI' : (v.sub i').internal f' = true := by
      rw [wf.internal_face _ _ _ _ h' h e']; exact hI
    have hl' := (wf.link_iff _ _ _ _ h' h hI' hI).2 e'
    have e1 := hL i f h
    have e2 := hL i' f' h'
    rw [hflux i f h hI, hl] at e1
    rw [hflux i' f' h' hI', hl', hl, hU'] at e2
    have hc := hp.continuous i f i' f' h h' hI e'.symm
    cases hU : (v.sub i).up f <;> rw [hU] at e1 e2 <;> simp only [Bool.not_true, Bool.not_false] at e2
    · rw [e1, e2, hc]; ring
    · rw [e1, e2, hc]; ring
  · rw [if_neg h1]
    have hd : ¬ v.dirichlet = true := by
      intro hd
      have : nSys v = nIn v := by unfold nSys nNeu; rw [if_pos hd]; rfl
      omega
    have hs : nSys v = nIn v + (countBnd v).1 + (countBnd v).2 := by
      unfold nSys nNeu; rw [if_neg hd, nBnd_split wf]; omega
    have hn : nNeuUp v = (countBnd v).1 := by unfold nNeuUp; rw [if_neg hd]
    have hc := countBnd_eq v
    by_cases h2 : r.1 < nIn v + nNeuUp v
    · rw [if_pos h2]
      obtain ⟨q, hq, hb, hk⟩ := count_onto (isBU v) (3 * v.npcen) (r - nIn v) (by
        rw [hn, hc] at h2; simp only at h2; omega)
      have e1 := hL _ _ (inR hq)
      rw [hb.2, flux_eq wf (inR hq), show 3 * (q / 3) + q % 3 = q by omega, fluxq, hb.1, hb.2] at e1
      simp only [Bool.false_eq_true, if_false, if_true] at e1
      rw [nIn_eq wf] at hk ⊢
      rw [← hk, e1]
      have := hp.boundary _ _ (inR hq) hb.1
      rw [if_neg hd] at this
      rw [this]; ring
    · rw [if_neg h2]
      obtain ⟨q, hq, hb, hk⟩ := count_onto (isBD v) (3 * v.npcen) (r - nIn v - nNeuUp v) (by
        rw [hn] at h2 ⊢; rw [hc] at hs h2 ⊢; simp only at hs h2 ⊢; omega)
      have e1 := hL _ _ (inR hq)
      rw [hb.2, flux_eq wf (inR hq), show 3 * (q / 3) + q % 3 = q by omega, fluxq, hb.1, hb.2] at e1
      simp only [Bool.false_eq_true, if_false] at e1
      rw [nIn_eq wf] at hk ⊢
      rw [← hk, e1]
      have := hp.boundary _ _ (inR hq) hb.1
      rw [if_neg hd] at this
      rw [this]; ring

theorem pos_onto {r : Nat} (hlt : r < v.nFaces) : ∃ q, q < 3 * v.npcen ∧ posq v q = r ∧
    (r < v.nIntFaces → (v.sub (q / 3)).internal (q % 3) = true) := by
  have hc := countBnd_eq v
  rw [wf.nFaces_eq, nBnd_split wf] at hlt
  by_cases h1 : r < v.nIntFaces
  · obtain ⟨i, f, h, hI, hl⟩ := wf.link_onto r h1
    refine ⟨3 * i + f, inR_q h, ?_, fun _ => by rw [q_div h.2, q_mod h.2]; exact hI⟩
    rw [posq, q_div h.2, q_mod h.2, hI]; simpa using hl
  · by_cases h2 : r < v.nIntFaces + (countBnd v).1
    · obtain ⟨q, hq, hb, hk⟩ := count_onto (isBU v) (3 * v.npcen) (r - v.nIntFaces) (by
        rw [hc] at h2; simp only at h2; omega)
      refine ⟨q, hq, ?_, fun h => absurd h h1⟩
      rw [posq, hb.1, hb.2]; simp only [Bool.false_eq_true, if_false, if_true]; omega
    · obtain ⟨q, hq, hb, hk⟩ := count_onto (isBD v) (3 * v.npcen)
        (r - v.nIntFaces - (countBnd v).1) (by
        rw [hc] at h2 hlt ⊢; simp only at h2 hlt ⊢; omega)
      refine ⟨q, hq, ?_, fun h => absurd h h1⟩
      rw [posq, hb.1, hb.2]; simp only [Bool.false_eq_true, if_false]; omega

/-- Every row belongs to a subface, the first ones to internal faces. -/
theorem row_onto {r : Nat} (hlt : r < v.nFaces) : ∃ i f, InRange v i f ∧
    RowOf v r ((v.sub i).face f) ∧ (r < v.nIntFaces → (v.sub i).internal f = true) := by
  obtain ⟨q, hq, hp, hI⟩ := pos_onto wf hlt
  refine ⟨q / 3, q % 3, inR hq, ⟨hlt, ?_⟩, hI⟩
  rw [← vertexFaces_pos wf (inR hq), show 3 * (q / 3) + q % 3 = q by omega, hp]

/-- The face list contains every face of the vertex exactly once. -/
theorem row_eq {r i f : Nat} (h : InRange v i f) (hr : RowOf v r ((v.sub i).face f)) :
    r = posq v (3 * i + f) := by
  obtain ⟨q, hq, rfl, -⟩ := pos_onto wf hr.1
  have e : (v.sub (q / 3)).face (q % 3) = (v.sub i).face f := by
    rw [← vertexFaces_pos wf (inR hq), show 3 * (q / 3) + q % 3 = q by omega]; exact hr.2
  cases hI : (v.sub i).internal f
  · have := wf.bnd_once _ _ _ _ h (inR hq) hI e.symm
    rw [show 3 * i + f = q by omega]
  · have hI' : (v.sub (q / 3)).internal (q % 3) = true := by
      rw [wf.internal_face _ _ _ _ (inR hq) h e]; exact hI
    rw [posq, posq, q_div h.2, q_mod h.2, hI, hI', if_pos rfl, if_pos rfl]
    exact (wf.link_iff _ _ _ _ (inR hq) h hI' hI).2 e

theorem unk_onto {c : Nat} (hc : c < nSys v) : ∃ i f, InRange v i f ∧ unk v i f = c := by
  by_cases h1 : c < v.nIntFaces
  · obtain ⟨i, f, h, hI, hl⟩ := wf.link_onto c h1
    exact ⟨i, f, h, by rw [unk_eq v i f h, hI, if_pos rfl, hl]⟩
  · have hlt : c - v.nIntFaces < Nat.count (isB v) (3 * v.npcen) := by
      rw [← nBnd_count wf]
      have : nSys v ≤ v.nIntFaces + v.nBnd := by
        rw [← nIn_eq wf]; unfold nSys nNeu; split <;> omega
      omega
    obtain ⟨q, hq, hb, hk⟩ := count_onto (isB v) _ _ hlt
    refine ⟨q / 3, q % 3, inR hq, ?_⟩
    rw [unk_eq v _ _ (inR hq), show (v.sub (q / 3)).internal (q % 3) = false from hb,
      show 3 * (q / 3) + q % 3 = q by omega, hk]
    simp only [Bool.false_eq_true, if_false]; omega

/-- The transmissibility row of a face applied to the pressures, for the interface pressures that
solve the local system. -/
theorem transTimes_face (X : Matrix (Fin (nSys v)) (Fin (v.npcen + nDir v)) ℝ) (u pb p : Nat → ℝ)
    (hp : Balanced v u pb p)
    (hP : ∀ i f, InRange v i f → full v (X.mulVec (wvec v u pb)) pb (unk v i f)
      = p ((v.sub i).face f))
    {r i f : Nat} (h : InRange v i f) (hb : (v.sub i).internal f = true ∨ v.dirichlet = true)
    (hr : RowOf v r ((v.sub i).face f)) :
    transTimes v (transEntry v X) u pb r = oneSided (v.sub i) (u i) p f := by
  have hL : ∀ i f, InRange v i f → L v ((v.sub i).up f) (flux v i f)
      (full v (X.mulVec (wvec v u pb)) pb) u = oneSided (v.sub i) (u i) p f := fun i f h =>
    L_oneSided wf h _ _ _ fun k hk => hP i k ⟨h.1, hk⟩
  rw [transTimes_row wf, row_eq wf h hr]
  have e := hL i f h
  rw [flux_eq wf h] at e
  cases hI : (v.sub i).internal f
  · have hd : v.dirichlet = true := by
      rcases hb with hb | hb
      · rw [hI] at hb; exact absurd hb (by decide)
      · exact hb
    have hc := countBnd_eq v
    have hn : nDirUp v = (countBnd v).1 := by unfold nDirUp; rw [if_pos hd]
    have hbq : isB v (3 * i + f) := by rw [isB, q_div h.2, q_mod h.2]; exact hI
    rw [fluxq, q_div h.2, q_mod h.2, hI] at e
    rw [posq, q_div h.2, q_mod h.2, hI]
    cases hU : (v.sub i).up f <;> rw [hU] at e <;>
      simp only [Bool.false_eq_true, if_false, if_true] at e ⊢
    · rw [nIn_eq wf, hn, if_neg (by omega), ← e]; congr 1; omega
    · have hlt : Nat.count (isBU v) (3 * i + f) < (countBnd v).1 := by
        rw [hc]; exact Nat.count_strict_mono ⟨hbq, by rw [q_div h.2, q_mod h.2]; exact hU⟩ (inR_q h)
      rw [nIn_eq wf, hn, if_pos (by omega), ← e]
  · have hlt := wf.link_lt _ _ h hI
    rw [fluxq, q_div h.2, q_mod h.2, hI] at e
    rw [posq, q_div h.2, q_mod h.2, hI]
    simp only [if_true] at e ⊢
    rw [nIn_eq wf, if_pos (by omega)]
    cases hU : (v.sub i).up f
    · obtain ⟨i', f', h', e', hU'⟩ := wf.paired i f h hI
      have hI' : (v.sub i').internal f' = true := by
        rw [wf.internal_face _ _ _ _ h' h e']; exact hI
      have hl' := (wf.link_iff _ _ _ _ h' h hI' hI).2 e'
      have e2 := hL i' f' h'
      rw [flux_eq wf h', fluxq, q_div h'.2, q_mod h'.2, hI', hU', hU] at e2
      simp only [if_true, Bool.not_false] at e2
      rw [← hl', e2]
      exact (hp.continuous _ _ _ _ h h' hI e'.symm).symm
    · rw [hU] at e; exact e

end bal

end TDy.Mpfao.Proofs
