import Verif.Spec.MpfaoTpf
import Verif.Props.MpfaoTrans
import Verif.Props.MpfaoGravity

/-! # The two-point option of MPFA-O: C134 to C138 -/

namespace TDy.Mpfao.Props

open TDy.Mpfao.Spec TDy.Mpfao.Proofs

namespace Tpf

theorem lengthOf_eq (p q : Geo.P3) : lengthOf p q = Geo.norm (Geo.join p q) := by
  unfold lengthOf Geo.norm Geo.join
  congr 1
  rw [show (0.0:ℝ) = 0 by norm_num]; ring

theorem norm_swap (p q : Geo.P3) : Geo.norm (Geo.join p q) = Geo.norm (Geo.join q p) := by
  unfold Geo.norm Geo.join
  congr 1; ring

theorem unitJoin_swap (p q : Geo.P3) : Geo.unitJoin p q
    = ⟨-(Geo.unitJoin q p).x, -(Geo.unitJoin q p).y, -(Geo.unitJoin q p).z⟩ := by
  unfold Geo.unitJoin Geo.unit
  rw [norm_swap p q]
  simp only [Geo.join]
  ext <;> simp only <;> ring

theorem norm_pos {p q : Geo.P3} (h : p ≠ q) : 0 < Geo.norm (Geo.join p q) := by
  unfold Geo.norm
  apply Real.sqrt_pos.2
  by_contra hc
  apply h
  simp only [Geo.join] at hc
  have hx : q.x - p.x = 0 := by nlinarith [sq_nonneg (q.x-p.x), sq_nonneg (q.y-p.y), sq_nonneg (q.z-p.z)]
  have hy : q.y - p.y = 0 := by nlinarith [sq_nonneg (q.x-p.x), sq_nonneg (q.y-p.y), sq_nonneg (q.z-p.z)]
  have hz : q.z - p.z = 0 := by nlinarith [sq_nonneg (q.x-p.x), sq_nonneg (q.y-p.y), sq_nonneg (q.z-p.z)]
  ext <;> linarith

theorem norm_sq (a : Geo.P3) : Geo.norm a ^ 2 = a.x^2 + a.y^2 + a.z^2 := by
  unfold Geo.norm
  rw [Real.sq_sqrt (by nlinarith [sq_nonneg a.x, sq_nonneg a.y, sq_nonneg a.z])]; ring

theorem unit_sq {p q : Geo.P3} (h : p ≠ q) :
    (Geo.unitJoin p q).x^2 + (Geo.unitJoin p q).y^2 + (Geo.unitJoin p q).z^2 = 1 := by
  have := norm_pos h
  simp only [Geo.unitJoin, Geo.unit, div_pow, ← add_div, ← norm_sq]
  exact div_self (by positivity)

theorem dirPerm_along (m : GravCtx) (c : Nat) (e : Geo.P3) :
    dirPerm (extractK m.K0 c) e = along m c e := by
  simp [dirPerm, extractK, tensor, along]; norm_num

theorem along_neg (m : GravCtx) (c : Nat) (e : Geo.P3) : along m c ⟨-e.x, -e.y, -e.z⟩ = along m c e := by
  simp [along]

theorem along_pos {m : GravCtx} {c : Nat} (h : ∀ k, 0 < tensor m c k k) {e : Geo.P3}
    (he : e.x^2 + e.y^2 + e.z^2 = 1) :
    0 < e.x^2 / tensor m c 0 0 + e.y^2 / tensor m c 1 1 + e.z^2 / tensor m c 2 2 ∧
    0 < along m c e := by
  have h0 := h 0
  have h1 := h 1
  have h2 := h 2
  have key : 0 < e.x^2 / tensor m c 0 0 + e.y^2 / tensor m c 1 1 + e.z^2 / tensor m c 2 2 := by
    have a0 : 0 ≤ e.x^2 / tensor m c 0 0 := by positivity
    have a1 : 0 ≤ e.y^2 / tensor m c 1 1 := by positivity
    have a2 : 0 ≤ e.z^2 / tensor m c 2 2 := by positivity
    by_contra hn
    have b0 : e.x^2 / tensor m c 0 0 = 0 := by linarith
    have b1 : e.y^2 / tensor m c 1 1 = 0 := by linarith
    have b2 : e.z^2 / tensor m c 2 2 = 0 := by linarith
    rw [div_eq_zero_iff] at b0 b1 b2
    linarith [b0.resolve_right h0.ne', b1.resolve_right h1.ne', b2.resolve_right h2.ne']
  exact ⟨key, one_div_pos.2 key⟩

theorem dot_neg (n e : Geo.P3) : Geo.dot n ⟨-e.x, -e.y, -e.z⟩ = -Geo.dot n e := by
  unfold Geo.dot; ring

/-- The conductance of a face: of the part `A` of face `f` between cells `a` and `b` (the same on the
boundary). -/
noncomputable def conductance (m : GravCtx) (A : ℝ) (f a b : Nat) : ℝ :=
  A*Geo.dot (m.normal f) (direction m f)*((along m a (direction m f) + along m b (direction m f))/2)
    / distance m f

variable {v : Vtx} {m : GravCtx} {cell : Nat → Nat}

theorem bnd_up (ar : Around v m cell) {i f : Nat} (h : InRange v i f)
    (hb : (v.sub i).internal f = false) (hu : (m.face ((v.sub i).face f)).up = cell i) :
    (m.face ((v.sub i).face f)).dn < 0 :=
  (ar.bnd i f h hb).resolve_left (by omega)

theorem bnd_dn (ar : Around v m cell) {i f : Nat} (h : InRange v i f)
    (hb : (v.sub i).internal f = false) (hu : (m.face ((v.sub i).face f)).dn = cell i) :
    (m.face ((v.sub i).face f)).up < 0 :=
  (ar.bnd i f h hb).resolve_right (by omega)

/-- The two cells of an internal face are the cells of two subcells. -/
theorem both (wf : WellFormed v) (ar : Around v m cell) {i f : Nat} (h : InRange v i f)
    (hI : (v.sub i).internal f = true) : ∃ i' f', InRange v i' f' ∧ (v.sub i').face f' = (v.sub i).face f ∧
    (((m.face ((v.sub i).face f)).up = cell i ∧ (m.face ((v.sub i).face f)).dn = cell i') ∨
     ((m.face ((v.sub i).face f)).up = cell i' ∧ (m.face ((v.sub i).face f)).dn = cell i)) := by
  obtain ⟨i', f', h', e, eu⟩ := wf.paired i f h hI
  refine ⟨i', f', h', e, ?_⟩
  have ne : i ≠ i' := by
    rintro rfl
    have := wf.sub_inj i f' f h' h e
    subst this
    simp at eu
  have nc : cell i ≠ cell i' := fun hc => ne (ar.cells i i' h.1 h'.1 hc)
  have a := ar.side i f h
  have b := ar.side i' f' h'
  rw [e] at b
  omega

theorem entry_up {i f : Nat}
    (hu : (m.face ((v.sub i).face f)).up = cell i) (A : ℝ) {j : Nat} (hd : (m.face ((v.sub i).face f)).dn = j) :
    tpfEntry m A (cell i) ((v.sub i).face f) = -(2*conductance m A ((v.sub i).face f) (cell i) j) := by
  have e1 : tpfOther m (cell i) ((v.sub i).face f) = j := by
    unfold tpfOther; rw [if_pos hu, hd]
  have e2 : tpfPoint m (cell i) ((v.sub i).face f) = pointDn m ((v.sub i).face f) := by
    unfold tpfPoint pointDn; rw [e1, hd]
  have e3 : m.cellCen (cell i) = pointUp m ((v.sub i).face f) := by
    unfold pointUp; rw [hu]; simp
  have e4 : tpfCell m (cell i) ((v.sub i).face f) = j := by unfold tpfCell; rw [e1]; simp
  have e5 : tpfDir m (cell i) ((v.sub i).face f) = ⟨-(direction m ((v.sub i).face f)).x,
      -(direction m ((v.sub i).face f)).y, -(direction m ((v.sub i).face f)).z⟩ := by
    unfold tpfDir; rw [e2, e3, unitJoin_swap]; rfl
  have e6 : tpfDist m (cell i) ((v.sub i).face f) = distance m ((v.sub i).face f)/2 := by
    unfold tpfDist distance
    rw [e1, if_pos (by omega), lengthOf_eq, e2, e3, norm_swap, show (0.50:ℝ) = 1/2 by norm_num]; ring
  unfold tpfEntry tpfPerm conductance
  rw [e4, e5, e6, dirPerm_along, dirPerm_along, along_neg, along_neg, dot_neg,
    show (0.5:ℝ) = 1/2 by norm_num]
  ring

theorem entry_dn (ar : Around v m cell) {i f : Nat}
    (hu : (m.face ((v.sub i).face f)).dn = cell i) (A : ℝ) {j : Nat} (hd : (m.face ((v.sub i).face f)).up = j) :
    tpfEntry m A (cell i) ((v.sub i).face f) = 2*conductance m A ((v.sub i).face f) j (cell i) := by
  have hn := ar.proper ((v.sub i).face f)
  rw [hu] at hn
  have e1 : tpfOther m (cell i) ((v.sub i).face f) = j := by
    unfold tpfOther; rw [if_neg hn, hd]
  have e2 : tpfPoint m (cell i) ((v.sub i).face f) = pointUp m ((v.sub i).face f) := by
    unfold tpfPoint pointUp; rw [e1, hd]
  have e3 : m.cellCen (cell i) = pointDn m ((v.sub i).face f) := by
    unfold pointDn; rw [hu]; simp
  have e4 : tpfCell m (cell i) ((v.sub i).face f) = j := by unfold tpfCell; rw [e1]; simp
  have e5 : tpfDir m (cell i) ((v.sub i).face f) = direction m ((v.sub i).face f) := by
    unfold tpfDir; rw [e2, e3]; rfl
  have e6 : tpfDist m (cell i) ((v.sub i).face f) = distance m ((v.sub i).face f)/2 := by
    unfold tpfDist distance
    rw [e1, if_pos (by omega), lengthOf_eq, e2, e3, show (0.50:ℝ) = 1/2 by norm_num]; ring
  unfold tpfEntry tpfPerm conductance
  rw [e4, e5, e6, dirPerm_along, dirPerm_along, show (0.5:ℝ) = 1/2 by norm_num]
  ring

theorem entry_bnd_up (ar : Around v m cell) {i f : Nat} (h : InRange v i f)
    (hu : (m.face ((v.sub i).face f)).up = cell i) (A : ℝ) (hb : (v.sub i).internal f = false) :
    tpfEntry m A (cell i) ((v.sub i).face f) = -conductance m A ((v.sub i).face f) (cell i) (cell i) := by
  have hd := bnd_up ar h hb hu
  have e1 : tpfOther m (cell i) ((v.sub i).face f) = (m.face ((v.sub i).face f)).dn := by
    unfold tpfOther; rw [if_pos hu]
  have e2 : tpfPoint m (cell i) ((v.sub i).face f) = pointDn m ((v.sub i).face f) := by
    unfold tpfPoint pointDn; rw [e1, if_neg (by omega)]
  have e3 : m.cellCen (cell i) = pointUp m ((v.sub i).face f) := by
    unfold pointUp; rw [hu]; simp
  have e4 : tpfCell m (cell i) ((v.sub i).face f) = cell i := by
    unfold tpfCell; rw [e1, if_neg (by omega)]
  have e5 : tpfDir m (cell i) ((v.sub i).face f) = ⟨-(direction m ((v.sub i).face f)).x,
      -(direction m ((v.sub i).face f)).y, -(direction m ((v.sub i).face f)).z⟩ := by
    unfold tpfDir; rw [e2, e3, unitJoin_swap]; rfl
  have e6 : tpfDist m (cell i) ((v.sub i).face f) = distance m ((v.sub i).face f) := by
    unfold tpfDist distance
    rw [e1, if_neg (by omega), lengthOf_eq, e2, e3, norm_swap]
  unfold tpfEntry tpfPerm conductance
  rw [e4, e5, e6, dirPerm_along, along_neg, dot_neg, show (0.5:ℝ) = 1/2 by norm_num]
  ring

theorem entry_bnd_dn (ar : Around v m cell) {i f : Nat} (h : InRange v i f)
    (hu : (m.face ((v.sub i).face f)).dn = cell i) (A : ℝ) (hb : (v.sub i).internal f = false) :
    tpfEntry m A (cell i) ((v.sub i).face f) = conductance m A ((v.sub i).face f) (cell i) (cell i) := by
  have hd := bnd_dn ar h hb hu
  have hn := ar.proper ((v.sub i).face f)
  rw [hu] at hn
  have e1 : tpfOther m (cell i) ((v.sub i).face f) = (m.face ((v.sub i).face f)).up := by
    unfold tpfOther; rw [if_neg hn]
  have e2 : tpfPoint m (cell i) ((v.sub i).face f) = pointUp m ((v.sub i).face f) := by
    unfold tpfPoint pointUp; rw [e1, if_neg (by omega)]
  have e3 : m.cellCen (cell i) = pointDn m ((v.sub i).face f) := by
    unfold pointDn; rw [hu]; simp
  have e4 : tpfCell m (cell i) ((v.sub i).face f) = cell i := by
    unfold tpfCell; rw [e1, if_neg (by omega)]
  have e5 : tpfDir m (cell i) ((v.sub i).face f) = direction m ((v.sub i).face f) := by
    unfold tpfDir; rw [e2, e3]; rfl
  have e6 : tpfDist m (cell i) ((v.sub i).face f) = distance m ((v.sub i).face f) := by
    unfold tpfDist distance
    rw [e1, if_neg (by omega), lengthOf_eq, e2, e3]
  unfold tpfEntry tpfPerm conductance
  rw [e4, e5, e6, dirPerm_along, show (0.5:ℝ) = 1/2 by norm_num]
  ring

/-- With a diagonal matrix only the pressure of the face itself counts. -/
theorem oneSided_diag {s : Sub} {g : Nat → ℝ} {f : Nat} (hf : f < 3)
    (hG : ∀ k, k < 3 → s.G f k = if f ≠ k then 0.0 else g f) (u : ℝ) (p : Nat → ℝ) :
    oneSided s u p f = g f*(u - p (s.face f)) := by
  unfold oneSided
  rw [Finset.sum_eq_single_of_mem f (Finset.mem_range.2 hf), hG f hf, if_neg (by simp)]
  intro k hk hne
  rw [hG k (Finset.mem_range.1 hk), if_pos (Ne.symm hne), show (0.0:ℝ) = 0 by norm_num, zero_mul]

theorem oneSided_tpf {area : Nat → ℝ} (ft : FromTpf v m cell area) {i f : Nat} (h : InRange v i f)
    (u : ℝ) (p : Nat → ℝ) : oneSided (v.sub i) u p f
      = tpfEntry m (area ((v.sub i).face f)) (cell i) ((v.sub i).face f)*(u - p ((v.sub i).face f)) :=
  oneSided_diag (g := fun f => tpfEntry m (area ((v.sub i).face f)) (cell i) ((v.sub i).face f)) h.2
    (fun k hk => ft i f k h hk) u p

theorem cond_ne {area : Nat → ℝ} (ok : TpfOk v m cell area) {i f j : Nat} (h : InRange v i f)
    (hj : j < v.npcen) :
    conductance m (area ((v.sub i).face f)) ((v.sub i).face f) (cell i) (cell j) ≠ 0 ∧
    conductance m (area ((v.sub i).face f)) ((v.sub i).face f) (cell j) (cell i) ≠ 0 := by
  have e := unit_sq (ok.apart i f h)
  have a1 := (along_pos (ok.pos i h.1) e).2
  have a2 := (along_pos (ok.pos j hj) e).2
  have d : 0 < distance m ((v.sub i).face f) := norm_pos (ok.apart i f h)
  have s : ∀ x y : ℝ, 0 < x → 0 < y → (x+y)/2 ≠ 0 := fun x y hx hy => by positivity
  constructor <;> unfold conductance <;>
    refine div_ne_zero (mul_ne_zero (mul_ne_zero (ok.area i f h) (ok.crosses i f h)) ?_) d.ne'
  · exact s _ _ a1 a2
  · exact s _ _ a2 a1

end Tpf

open Tpf

variable {v : Vtx} {m : GravCtx} {cell : Nat → Nat} {area : Nat → ℝ}

/-- **C134.**  No vertex is refused: the two-point fluxes are always determined. -/
theorem C134_accepted (wf : WellFormed v) (ar : Around v m cell) (ok : TpfOk v m cell area)
    (ft : FromTpf v m cell area) : ∃ T, trans v = some T := by
  cases hT : trans v with
  | some T => exact ⟨T, rfl⟩
  | none =>
    exfalso
    obtain ⟨p, hp, i, f, h, hne⟩ := (C47_refused_iff wf).1 hT
    apply hne
    cases hI : (v.sub i).internal f
    · have hb := hp.boundary i f h hI
      by_cases hd : v.dirichlet = true
      · rw [if_pos hd] at hb; exact hb
      · rw [if_neg hd, oneSided_tpf ft h] at hb
        have c := (cond_ne ok h h.1).1
        rcases ar.side i f h with hu | hu
        · rw [entry_bnd_up ar h hu _ hI] at hb
          rcases mul_eq_zero.1 hb with q | q
          · exact absurd (neg_eq_zero.1 q) c
          · linarith
        · rw [entry_bnd_dn ar h hu _ hI] at hb
          rcases mul_eq_zero.1 hb with q | q
          · exact absurd q c
          · linarith
    · obtain ⟨i', f', h', e, ⟨b, a⟩ | ⟨a, b⟩⟩ := both wf ar h hI
      · have hc := hp.continuous i f i' f' h h' hI e.symm
        rw [oneSided_tpf ft h, oneSided_tpf ft h', e] at hc
        have c := (cond_ne ok h h'.1).1
        rw [entry_up b _ a, ← e, entry_dn ar (i := i') (f := f') (by rw [e]; exact a) _ (by rw [e]; exact b),
          e] at hc
        have : conductance m (area ((v.sub i).face f)) ((v.sub i).face f) (cell i) (cell i')
          * p ((v.sub i).face f) = 0 := by linarith
        exact (mul_eq_zero.1 this).resolve_left c
      · have hc := hp.continuous i f i' f' h h' hI e.symm
        rw [oneSided_tpf ft h, oneSided_tpf ft h', e] at hc
        have c := (cond_ne ok h h'.1).2
        rw [entry_dn ar b _ a, ← e, entry_up (i := i') (f := f') (by rw [e]; exact a) _ (by rw [e]; exact b),
          e] at hc
        have : conductance m (area ((v.sub i).face f)) ((v.sub i).face f) (cell i') (cell i)
          * p ((v.sub i).face f) = 0 := by linarith
        exact (mul_eq_zero.1 this).resolve_left c

/-- **C134.**  The row of an internal face is the two-point flux between its two cells, with the
arithmetic mean of the permeabilities along the line that joins them; no other pressure counts. -/
theorem C134_internal (wf : WellFormed v) (ar : Around v m cell) (ok : TpfOk v m cell area)
    (ft : FromTpf v m cell area) {T} (hT : trans v = some T) (u pb : Nat → ℝ) {i f i' f' x r : Nat}
    (h : InRange v i f) (h' : InRange v i' f') (hx : (v.sub i).face f = x)
    (hx' : (v.sub i').face f' = x) (hI : (v.sub i).internal f = true)
    (hu : (m.face x).up = cell i) (hu' : (m.face x).dn = cell i') (hr : RowOf v r x) :
    transTimes v T u pb r = area x*Geo.dot (m.normal x) (direction m x)
      *((along m (cell i) (direction m x) + along m (cell i') (direction m x))/2)
      *(u i' - u i)/distance m x := by
  subst hx
  obtain ⟨p, hp, -⟩ := C47_face_pressures wf hT u pb
  rw [C47_common_flux wf hT u pb p hp h (.inl hI) hr]
  have hc := hp.continuous i f i' f' h h' hI hx'.symm
  have c := (cond_ne ok h h'.1).1
  have e1 := oneSided_tpf ft h (u i) p
  have e2 := oneSided_tpf ft h' (u i') p
  rw [entry_up hu _ hu'] at e1
  rw [entry_dn ar (i := i') (f := f') (by rw [hx']; exact hu') _ (by rw [hx']; exact hu), hx'] at e2
  rw [e1, e2] at hc
  have hp' : p ((v.sub i).face f) = (u i + u i')/2 := by
    have : conductance m (area ((v.sub i).face f)) ((v.sub i).face f) (cell i) (cell i')
      * ((u i + u i')/2 - p ((v.sub i).face f)) = 0 := by linarith
    have := (mul_eq_zero.1 this).resolve_left c
    linarith
  rw [e1, hp']
  unfold conductance
  ring

/-- **C134.**  The row of a boundary face with a given pressure is the flux between the cell and the
centroid of the face. -/
theorem C134_boundary (wf : WellFormed v) (ar : Around v m cell) (ft : FromTpf v m cell area)
    {T} (hT : trans v = some T) (u pb : Nat → ℝ) {i f x r : Nat}
    (h : InRange v i f) (hx : (v.sub i).face f = x) (hI : (v.sub i).internal f = false)
    (hd : v.dirichlet = true) (hr : RowOf v r x) :
    transTimes v T u pb r = area x*Geo.dot (m.normal x) (direction m x)
      *along m (cell i) (direction m x)
      *(if (m.face x).up = cell i then pb ((v.sub i).bnd f) - u i else u i - pb ((v.sub i).bnd f))
      /distance m x := by
  subst hx
  obtain ⟨p, hp, -⟩ := C47_face_pressures wf hT u pb
  rw [C47_common_flux wf hT u pb p hp h (.inr hd) hr, oneSided_tpf ft h]
  have hb := hp.boundary i f h hI
  rw [if_pos hd] at hb
  rcases ar.side i f h with hu | hu
  · rw [entry_bnd_up ar h hu _ hI, hb, if_pos hu]; unfold conductance; ring
  · have := bnd_dn ar h hI hu
    rw [entry_bnd_dn ar h hu _ hI, hb, if_neg (by omega)]; unfold conductance; ring

/-! ### Uniform media -/

theorem dot_unit {m : GravCtx} {x : Nat} (h : pointUp m x ≠ pointDn m x) (g : Geo.P3) :
    Geo.dot g (pointDn m x) - Geo.dot g (pointUp m x) = distance m x*Geo.dot g (direction m x) := by
  have := norm_pos h
  simp only [direction, distance, Geo.unitJoin, Geo.unit, Geo.dot]
  generalize Geo.norm (Geo.join (pointUp m x) (pointDn m x)) = d at *
  simp only [Geo.join]
  field_simp
  ring

/-- The flux in terms of the values at the two points of a face. -/
theorem two_points (wf : WellFormed v) (ar : Around v m cell) (ok : TpfOk v m cell area)
    (ft : FromTpf v m cell area) (one : OneTensor v m cell) {T} (hT : trans v = some T)
    {u pb : Nat → ℝ} {φ : Geo.P3 → ℝ} (hu : ∀ i, i < v.npcen → u i = φ (m.cellCen (cell i)))
    (hd : v.dirichlet = true)
    (hpb : ∀ i f, InRange v i f → (v.sub i).internal f = false →
      pb ((v.sub i).bnd f) = φ (m.faceCen ((v.sub i).face f))) {r x : Nat} (hr : RowOf v r x) :
    transTimes v T u pb r = area x*Geo.dot (m.normal x) (direction m x)
      *along m (cell 0) (direction m x)*(φ (pointDn m x) - φ (pointUp m x))/distance m x := by
  obtain ⟨i, f, h, hrow, -⟩ := row_onto wf hr.1
  have hx : (v.sub i).face f = x := by rw [← hrow.2]; exact hr.2
  have al : ∀ i, i < v.npcen → ∀ e, along m (cell i) e = along m (cell 0) e := by
    intro i hi e; unfold along; rw [one i hi]
  cases hI : (v.sub i).internal f
  · rw [C134_boundary wf ar ft hT u pb h hx hI hd hr, al i h.1, hpb i f h hI, hu i h.1, hx]
    rcases ar.side i f h with a | a
    · have b := bnd_up ar h hI a
      rw [hx] at a b
      have e1 : pointDn m x = m.faceCen x := by unfold pointDn; rw [if_neg (by omega)]
      have e2 : pointUp m x = m.cellCen (cell i) := by unfold pointUp; rw [a]; simp
      rw [e1, e2, if_pos a]
    · have b := bnd_dn ar h hI a
      rw [hx] at a b
      have e1 : pointUp m x = m.faceCen x := by unfold pointUp; rw [if_neg (by omega)]
      have e2 : pointDn m x = m.cellCen (cell i) := by unfold pointDn; rw [a]; simp
      rw [e1, e2, if_neg (by omega)]
  · obtain ⟨i', f', h', e, eu⟩ := both wf ar h hI
    rw [hx] at eu
    have pts : ∀ i i', i < v.npcen → i' < v.npcen → (m.face x).up = cell i → (m.face x).dn = cell i' →
        u i' - u i = φ (pointDn m x) - φ (pointUp m x) := by
      intro i i' h h' a b
      have e1 : pointUp m x = m.cellCen (cell i) := by unfold pointUp; rw [a]; simp
      have e2 : pointDn m x = m.cellCen (cell i') := by unfold pointDn; rw [b]; simp
      rw [e1, e2, hu i h, hu i' h']
    rcases eu with ⟨hU, hU'⟩ | ⟨hU', hU⟩
    · rw [C134_internal wf ar ok ft hT u pb h h' hx (by rw [e, hx]) hI hU hU' hr, al i h.1, al i' h'.1,
        pts i i' h.1 h'.1 hU hU']
      ring
    · have hI' : (v.sub i').internal f' = true := by rw [wf.internal_face i' f' i f h' h e, hI]
      rw [C134_internal wf ar ok ft hT u pb h' h (by rw [e, hx]) hx hI' hU' hU hr, al i h.1, al i' h'.1,
        pts i' i h'.1 h.1 hU' hU]
      ring

theorem orthogonal_along {m : GravCtx} {c x : Nat} (pos : ∀ k, 0 < tensor m c k k)
    (diag : IsDiagonal m c) (ap : pointUp m x ≠ pointDn m x) (ko : KOrthogonal m c x) (g : Geo.P3) :
    Geo.dot (m.normal x) (direction m x)*along m c (direction m x)*Geo.dot g (direction m x)
      = Geo.dot (m.normal x) (times m c g) := by
  obtain ⟨l, hx, hy, hz⟩ := ko
  have dp : 0 < distance m x := norm_pos ap
  have hs := unit_sq ap
  have sp := (along_pos pos hs).1
  have h0 := pos 0
  have h1 := pos 1
  have h2 := pos 2
  simp only [times, diag 0 1 (by decide), diag 0 2 (by decide), diag 1 0 (by decide),
    diag 1 2 (by decide), diag 2 0 (by decide), diag 2 1 (by decide), zero_mul, add_zero,
    zero_add] at hx hy hz ⊢
  have e : ∀ w, w = distance m x*(w/distance m x) := fun w => by field_simp
  have ex : (pointDn m x).x - (pointUp m x).x = distance m x*(direction m x).x := e _
  have ey : (pointDn m x).y - (pointUp m x).y = distance m x*(direction m x).y := e _
  have ez : (pointDn m x).z - (pointUp m x).z = distance m x*(direction m x).z := e _
  rw [ex] at hx
  rw [ey] at hy
  rw [ez] at hz
  have nx : (m.normal x).x = l*distance m x*((direction m x).x/tensor m c 0 0) := by
    field_simp; linarith
  have ny : (m.normal x).y = l*distance m x*((direction m x).y/tensor m c 1 1) := by
    field_simp; linarith
  have nz : (m.normal x).z = l*distance m x*((direction m x).z/tensor m c 2 2) := by
    field_simp; linarith
  have nd : Geo.dot (m.normal x) (direction m x)*along m c (direction m x) = l*distance m x := by
    have : Geo.dot (m.normal x) (direction m x) = l*distance m x*((direction m x).x^2/tensor m c 0 0
      + (direction m x).y^2/tensor m c 1 1 + (direction m x).z^2/tensor m c 2 2) := by
      unfold Geo.dot; rw [nx, ny, nz]; ring
    rw [this]; unfold along
    change 0 < (direction m x).x^2/tensor m c 0 0
      + (direction m x).y^2/tensor m c 1 1 + (direction m x).z^2/tensor m c 2 2 at sp
    rw [mul_assoc, mul_one_div, div_self sp.ne', mul_one]
  rw [nd]
  simp only [Geo.dot]
  linear_combination g.x*hx.symm + g.y*hy.symm + g.z*hz.symm

/-- **C135**, with one diagonal tensor around the vertex: on a K-orthogonal grid a linear pressure
drives the exact flux through every face.  Missing: tensors with off-diagonal entries
(`C135_violated`). -/
theorem C135_diagonal_partial (wf : WellFormed v) (ar : Around v m cell) (ok : TpfOk v m cell area)
    (ft : FromTpf v m cell area) (one : OneTensor v m cell) (diag : IsDiagonal m (cell 0))
    (ko : ∀ i f, InRange v i f → KOrthogonal m (cell 0) ((v.sub i).face f))
    {T} (hT : trans v = some T) (hd : v.dirichlet = true) {g : Geo.P3} {b : ℝ} {u pb : Nat → ℝ}
    (lin : Linear v m cell g b u pb) {r x : Nat} (hr : RowOf v r x) :
    transTimes v T u pb r = area x*Geo.dot (m.normal x) (times m (cell 0) g) := by
  rw [two_points (φ := fun p => Geo.dot g p + b) wf ar ok ft one hT lin.1 hd lin.2 hr]
  obtain ⟨i, f, h, hrow, -⟩ := row_onto wf hr.1
  have hx : (v.sub i).face f = x := by rw [← hrow.2]; exact hr.2
  have ap := ok.apart i f h
  have k := ko i f h
  rw [hx] at ap k
  have h0 : 0 < v.npcen := lt_of_le_of_lt (Nat.zero_le _) h.1
  have dp : 0 < distance m x := norm_pos ap
  rw [← orthogonal_along (ok.pos 0 h0) diag ap k g,
    show Geo.dot g (pointDn m x) + b - (Geo.dot g (pointUp m x) + b)
      = Geo.dot g (pointDn m x) - Geo.dot g (pointUp m x) by ring, dot_unit ap g]
  field_simp

/-! ### Different cells -/

/-- **C136**, for cells that are equally permeable along the line joining them: the flux is that of
the two halves in series.  Missing: different cells (`C136_violated`). -/
theorem C136_same_partial (wf : WellFormed v) (ar : Around v m cell) (ok : TpfOk v m cell area)
    (ft : FromTpf v m cell area) {T} (hT : trans v = some T) (u pb : Nat → ℝ) {i f i' f' x r : Nat}
    (h : InRange v i f) (h' : InRange v i' f') (hx : (v.sub i).face f = x)
    (hx' : (v.sub i').face f' = x) (hI : (v.sub i).internal f = true)
    (hu : (m.face x).up = cell i) (hu' : (m.face x).dn = cell i') (hr : RowOf v r x)
    (same : along m (cell i) (direction m x) = along m (cell i') (direction m x)) :
    transTimes v T u pb r = area x*Geo.dot (m.normal x) (direction m x)
      *series (along m (cell i) (direction m x)) (along m (cell i') (direction m x))
      *(u i' - u i)/distance m x := by
  rw [C134_internal wf ar ok ft hT u pb h h' hx hx' hI hu hu' hr, same]
  have ap := ok.apart i f h
  rw [hx] at ap
  have a := (along_pos (ok.pos i' h'.1) (unit_sq ap)).2
  change 0 < along m (cell i') (direction m x) at a
  unfold series
  congr 2
  field_simp
  ring

/-- **C136** fails for all other cells: whenever the two cells differ and there is something to drive
a flux, it is not that of the two halves in series; it is larger. -/
theorem C136_violated (wf : WellFormed v) (ar : Around v m cell) (ok : TpfOk v m cell area)
    (ft : FromTpf v m cell area) {T} (hT : trans v = some T) (u pb : Nat → ℝ) {i f i' f' x r : Nat}
    (h : InRange v i f) (h' : InRange v i' f') (hx : (v.sub i).face f = x)
    (hx' : (v.sub i').face f' = x) (hI : (v.sub i).internal f = true)
    (hu : (m.face x).up = cell i) (hu' : (m.face x).dn = cell i') (hr : RowOf v r x)
    (differ : along m (cell i) (direction m x) ≠ along m (cell i') (direction m x))
    (drive : u i ≠ u i') :
    |area x*Geo.dot (m.normal x) (direction m x)
      *series (along m (cell i) (direction m x)) (along m (cell i') (direction m x))
      *(u i' - u i)/distance m x| < |transTimes v T u pb r| := by
  rw [C134_internal wf ar ok ft hT u pb h h' hx hx' hI hu hu' hr]
  have ap := ok.apart i f h
  have ar' := ok.area i f h
  have cr := ok.crosses i f h
  rw [hx] at ap ar' cr
  have a := (along_pos (ok.pos i h.1) (unit_sq ap)).2
  have b := (along_pos (ok.pos i' h'.1) (unit_sq ap)).2
  change 0 < along m (cell i) (direction m x) at a
  change 0 < along m (cell i') (direction m x) at b
  have dp : 0 < distance m x := norm_pos ap
  generalize along m (cell i) (direction m x) = k at *
  generalize along m (cell i') (direction m x) = k' at *
  have s : series k k' < (k + k')/2 := by
    unfold series
    rw [show (2:ℝ)/(1/k + 1/k') = 2*k*k'/(k + k') by field_simp; ring, div_lt_div_iff₀ (by positivity) (by norm_num)]
    nlinarith [mul_self_pos.2 (sub_ne_zero.2 differ)]
  have s0 : 0 < series k k' := by unfold series; positivity
  have e : ∀ q, area x*Geo.dot (m.normal x) (direction m x)*q*(u i' - u i)/distance m x
      = q*(area x*Geo.dot (m.normal x) (direction m x)*(u i' - u i)/distance m x) := fun q => by ring
  rw [e, e, abs_mul, abs_mul, abs_of_pos s0, abs_of_pos (by positivity : 0 < (k+k')/2)]
  refine mul_lt_mul_of_pos_right s (abs_pos.2 ?_)
  exact div_ne_zero (mul_ne_zero (mul_ne_zero ar' cr) (sub_ne_zero.2 (Ne.symm drive))) dp.ne'

/-! ### Hydrostatic equilibrium -/

theorem gz_unit {m : GravCtx} {x : Nat} (h : pointUp m x ≠ pointDn m x) :
    gz m (pointDn m x) - gz m (pointUp m x) = distance m x*gz m (direction m x) := by
  have := dot_unit h ⟨|m.gravity.x|, |m.gravity.y|, |m.gravity.z|⟩
  simp only [Geo.dot, zero_add] at this
  exact this

theorem gtimesZ_eq (m : GravCtx) (p : Geo.P3) : gtimesZ m.gravity p = gz m p := by
  unfold gtimesZ gz; norm_num

theorem upDown_eq (m : GravCtx) (f : Nat) : upDown m f = direction m f := rfl

/-- What drives the flux through an internal face when the fluid is at rest: the gravity term has
the harmonic mean of the permeabilities, the pressure term their arithmetic mean. -/
theorem C137_two_point_formula (wf : WellFormed v) (ar : Around v m cell) (ok : TpfOk v m cell area)
    (ft : FromTpf v m cell area) (tpf : m.tpf = true) {T} (hT : trans v = some T) {u pb : Nat → ℝ}
    {ρ p0 : ℝ} (rest : AtRest v m cell ρ p0 u pb) {i f i' f' x r : Nat}
    (h : InRange v i f) (h' : InRange v i' f') (hx : (v.sub i).face f = x)
    (hx' : (v.sub i').face f' = x) (hI : (v.sub i).internal f = true)
    (hu : (m.face x).up = cell i) (hu' : (m.face x).dn = cell i') (hr : RowOf v r x)
    (c : Ctx) (hc : denAvg c (m.face x) = ρ) :
    driving c (m.face x) (transTimes v T u pb r) (gravDis m x (area x))
      = ρ*area x*Geo.dot (m.normal x) (direction m x)*gz m (direction m x)
        *(permTPF m x - (along m (cell i) (direction m x) + along m (cell i') (direction m x))/2) := by
  rw [C134_internal wf ar ok ft hT u pb h h' hx hx' hI hu hu' hr]
  have ap := ok.apart i f h
  rw [hx] at ap
  have e1 : pointUp m x = m.cellCen (cell i) := by unfold pointUp; rw [hu]; simp
  have e2 : pointDn m x = m.cellCen (cell i') := by unfold pointDn; rw [hu']; simp
  have r1 := rest.1 i h.1
  have r2 := rest.1 i' h'.1
  rw [← e1] at r1
  rw [← e2] at r2
  have hz := gz_unit ap
  have dp : 0 < distance m x := norm_pos ap
  have du : u i' - u i = -ρ*(distance m x*gz m (direction m x)) := by rw [← hz]; linarith
  unfold driving gravDis
  rw [hc, tpf, if_pos rfl, gtimesZ_eq, upDown_eq, du]
  field_simp
  ring

theorem permTPF_same {m : GravCtx} {f up dn : Nat} (h : Joins m f up dn)
    (pos : ∀ c, c = up ∨ c = dn → ∀ i, 0 < tensor m c i i)
    (ap : pointUp m f ≠ pointDn m f)
    (same : along m up (direction m f) = along m dn (direction m f)) :
    permTPF m f = along m up (direction m f) := by
  rw [C58_two_point h pos ap _ rfl]
  have hs := unit_sq ap
  have a := (along_pos (pos up (.inl rfl)) hs).1
  have b := (along_pos (pos dn (.inr rfl)) hs).1
  simp only [along] at same ⊢
  change 0 < (direction m f).x^2/tensor m up 0 0 + (direction m f).y^2/tensor m up 1 1
    + (direction m f).z^2/tensor m up 2 2 at a
  change 0 < (direction m f).x^2/tensor m dn 0 0 + (direction m f).y^2/tensor m dn 1 1
    + (direction m f).z^2/tensor m dn 2 2 at b
  rw [upDown_eq]
  generalize (direction m f).x^2/tensor m up 0 0 + (direction m f).y^2/tensor m up 1 1
    + (direction m f).z^2/tensor m up 2 2 = A at *
  generalize (direction m f).x^2/tensor m dn 0 0 + (direction m f).y^2/tensor m dn 1 1
    + (direction m f).z^2/tensor m dn 2 2 = B at *
  have : A = B := by
    have := congrArg (fun x => 1/x) same
    simpa using this
  rw [this]; congr 1; ring

theorem fluxm_rest (c : Ctx) (f : MFace) {TP G : ℝ} (h : driving c f TP G = 0) : fluxm c f TP G = 0 := by
  unfold fluxm
  split
  · norm_num
  · unfold driving at h
    rw [show TP = -(denAvg c f*G) by linarith]; ring

/-- **C137**, two-point option: between cells equally permeable along the line joining them, and with
a given boundary pressure, nothing flows when the fluid is at rest, on any grid.  Missing: different
cells (`C137_layers_violated`) and the default method (`C137_default_partial`). -/
theorem C137_two_point_partial (wf : WellFormed v) (ar : Around v m cell) (ok : TpfOk v m cell area)
    (ft : FromTpf v m cell area) (tpf : m.tpf = true) {T} (hT : trans v = some T) {u pb : Nat → ℝ}
    {ρ p0 : ℝ} (rest : AtRest v m cell ρ p0 u pb) (one : OneTensor v m cell)
    (hd : v.dirichlet = true) {x r : Nat} (hr : RowOf v r x)
    (c : Ctx) (hc : denAvg c (m.face x) = ρ) :
    fluxm c (m.face x) (transTimes v T u pb r) (gravDis m x (area x)) = 0 := by
  apply fluxm_rest
  rw [two_points (φ := fun p => p0 - ρ*gz m p) wf ar ok ft one hT
    (fun i hi => by linarith [rest.1 i hi]) hd (fun i f h hb => by linarith [rest.2 i f h hb]) hr]
  obtain ⟨i, f, h, hrow, -⟩ := row_onto wf hr.1
  have hx : (v.sub i).face f = x := by rw [← hrow.2]; exact hr.2
  have ap := ok.apart i f h
  rw [hx] at ap
  have h0 : 0 < v.npcen := lt_of_le_of_lt (Nat.zero_le _) h.1
  have dp : 0 < distance m x := norm_pos ap
  have al : ∀ i, i < v.npcen → ∀ e, along m (cell i) e = along m (cell 0) e := by
    intro i hi e; unfold along; rw [one i hi]
  have perm : permTPF m x = along m (cell 0) (direction m x) := by
    rw [← al i h.1]
    cases hI : (v.sub i).internal f
    · rcases ar.side i f h with a | a
      · have b := bnd_up ar h hI a
        rw [hx] at a b
        refine permTPF_same (.inr (.inl ⟨a, b, rfl⟩)) ?_ ap rfl
        rintro c (rfl | rfl) <;> exact ok.pos i h.1
      · have b := bnd_dn ar h hI a
        rw [hx] at a b
        refine permTPF_same (.inr (.inr ⟨b, a, rfl⟩)) ?_ ap rfl
        rintro c (rfl | rfl) <;> exact ok.pos i h.1
    · obtain ⟨i', f', h', e, eu⟩ := both wf ar h hI
      rw [hx] at eu
      rcases eu with eu | eu
      · rw [permTPF_same (.inl eu) ?_ ap (by rw [al i h.1, al i' h'.1])]
        rintro c (rfl | rfl)
        · exact ok.pos i h.1
        · exact ok.pos i' h'.1
      · rw [permTPF_same (.inl eu) ?_ ap (by rw [al i h.1, al i' h'.1]), al i h.1, al i' h'.1]
        rintro c (rfl | rfl)
        · exact ok.pos i' h'.1
        · exact ok.pos i h.1
  have hz := gz_unit ap
  unfold driving gravDis
  rw [hc, tpf, if_pos rfl, gtimesZ_eq, upDown_eq, perm,
    show p0 - ρ*gz m (pointDn m x) - (p0 - ρ*gz m (pointUp m x))
      = -ρ*(gz m (pointDn m x) - gz m (pointUp m x)) by ring, hz]
  field_simp
  ring

/-- **C137**, default method: with one tensor around the vertex and a K-orthogonal grid nothing flows
when the fluid is at rest.  Missing: other grids and media (`C137_default_violated`). -/
theorem C137_default_partial (wf : WellFormed v) (ar : Around v m cell) {vtx : Geo.P3}
    {order : Nat → Fin 3 → Nat} (tpf : m.tpf = false) {T} (hT : trans v = some T)
    (hface : ∀ i, i < v.npcen → ∀ k : Fin 3,
      (v.sub i).face k = orientFaces m.faceCen (m.cellCen (cell i)) vtx (order i) k)
    (hsep : ∀ i, i < v.npcen → Separates m.faceCen (m.cellCen (cell i)) vtx (order i))
    (hG : ∀ i, i < v.npcen → ∀ ii jj : Fin 3, (v.sub i).G ii jj
      = gMatrix (fun a b => tensor m (cell i) a b) area m.normal m.faceCen (m.cellCen (cell i))
        (fun k => (v.sub i).face k) ii jj)
    (one : OneTensor v m cell) (pd : (tensor m (cell 0)).PosDef)
    (large : ∀ i j, tensor m (cell 0) i j = 0 ∨ Geo.machineEps ≤ tensor m (cell 0) i j)
    (apart : ∀ i f, InRange v i f → pointUp m ((v.sub i).face f) ≠ pointDn m ((v.sub i).face f))
    (away : ∀ i f, InRange v i f → m.cellCen (cell i) ≠ m.faceCen ((v.sub i).face f))
    (ko : ∀ i f, InRange v i f → KOrthogonal m (cell 0) ((v.sub i).face f))
    {u pb : Nat → ℝ} {ρ p0 : ℝ} (rest : AtRest v m cell ρ p0 u pb)
    (hd : v.dirichlet = true) {x r : Nat} (hr : RowOf v r x)
    (c : Ctx) (hc : denAvg c (m.face x) = ρ) :
    fluxm c (m.face x) (transTimes v T u pb r) (gravDis m x (area x)) = 0 := by
  apply fluxm_rest
  obtain ⟨i, f, h, hrow, -⟩ := row_onto wf hr.1
  have hx : (v.sub i).face f = x := by rw [← hrow.2]; exact hr.2
  have ap := apart i f h
  have aw := away i f h
  have k := ko i f h
  rw [hx] at ap k aw
  -- the pressure term
  have hTP : transTimes v T u pb r = area x*Geo.dot (m.normal x)
      (mulK (fun a b => tensor m (cell 0) a b)
        ⟨-ρ*|m.gravity.x|, -ρ*|m.gravity.y|, -ρ*|m.gravity.z|⟩) := by
    have e := C92_linear_exact wf hT (fun a b => tensor m (cell 0) a b) area m.normal m.faceCen
      (fun i => m.cellCen (cell i)) vtx order hface hsep
      (fun i hi ii jj => by rw [hG i hi, one i hi])
      ⟨-ρ*|m.gravity.x|, -ρ*|m.gravity.y|, -ρ*|m.gravity.z|⟩ p0 pb
      (fun i f h hb => ⟨hd, by
        have := rest.2 i f h hb
        simp only [gz] at this
        simp only [Geo.dot]; linarith⟩) hr
    rw [← e]
    unfold transTimes
    refine Finset.sum_congr rfl fun j _ => ?_
    by_cases hj : j.1 < v.npcen
    · rw [if_pos hj, if_pos hj]
      have := rest.1 j hj
      simp only [gz] at this
      simp only [Geo.dot]
      congr 1; linarith
    · rw [if_neg hj, if_neg hj]
  -- the tensor of the face
  have hK : Geo.Spec.matrix (faceTensor m x) = tensor m (cell 0) := by
    have main : ∀ a b, Joins m x (cell a) (cell b) → a < v.npcen → b < v.npcen →
        Geo.Spec.matrix (faceTensor m x) = tensor m (cell 0) := by
      intro a b hj ha hb
      have s : meanTensor m x (cell a) (cell b) = tensor m (cell 0) := by
        rw [C58_same (by rw [one a ha]; exact pd) (by rw [one a ha, one b hb]), one a ha]
      rw [C58_tensor_partial hj (by rw [one a ha]; exact pd) (by rw [one b hb]; exact pd) ?_
        (by rw [s]; exact large), s]
      -- the cell of subcell `i` is away from the face
      have nn := sideDistance_nonneg m x
      have pos : ∀ id : ℤ, id = cell i → 0 < sideDistance m x id := by
        intro id hid
        unfold sideDistance
        rw [hid, if_pos (by omega)]
        have := norm_pos aw
        simpa [Geo.norm, Geo.join, pow_two] using this
      rcases ar.side i f h with this | this
      · rw [hx] at this
        linarith [pos _ this, nn (m.face x).dn]
      · rw [hx] at this
        linarith [pos _ this, nn (m.face x).up]
    cases hI : (v.sub i).internal f
    · rcases ar.side i f h with a | a
      · have b := bnd_up ar h hI a
        rw [hx] at a b
        exact main i i (.inr (.inl ⟨a, b, rfl⟩)) h.1 h.1
      · have b := bnd_dn ar h hI a
        rw [hx] at a b
        exact main i i (.inr (.inr ⟨b, a, rfl⟩)) h.1 h.1
    · obtain ⟨i', f', h', e, eu⟩ := both wf ar h hI
      rw [hx] at eu
      rcases eu with eu | eu
      · exact main i i' (.inl eu) h.1 h'.1
      · exact main i' i (.inl eu) h'.1 h.1
  unfold driving
  rw [hc, gravDis_eq, hTP]
  unfold coefficient
  rw [tpf]
  simp only [Bool.false_eq_true, if_false]
  rw [hK, upDown_eq]
  have sym : ∀ a b, tensor m (cell 0) a b = tensor m (cell 0) b a := by
    intro a b
    have := congrFun (congrFun pd.isHermitian b) a
    simpa using this
  obtain ⟨l, hlx, hly, hlz⟩ := k
  have hs := unit_sq ap
  change (direction m x).x^2 + (direction m x).y^2 + (direction m x).z^2 = 1 at hs
  have dp : 0 < distance m x := norm_pos ap
  have e : ∀ w, w = distance m x*(w/distance m x) := fun w => by field_simp
  have ex : (pointDn m x).x - (pointUp m x).x = distance m x*(direction m x).x := e _
  have ey : (pointDn m x).y - (pointUp m x).y = distance m x*(direction m x).y := e _
  have ez : (pointDn m x).z - (pointUp m x).z = distance m x*(direction m x).z := e _
  rw [ex] at hlx
  rw [ey] at hly
  rw [ez] at hlz
  simp only [times] at hlx hly hlz
  simp only [Matrix.mulVec, dotProduct, Fin.sum_univ_three, Geo.dot, mulK, Matrix.cons_val_zero,
    Matrix.cons_val_one, Matrix.cons_val]
  rw [sym 1 0, sym 2 0, sym 2 1] at *
  generalize tensor m (cell 0) 0 0 = k00 at *
  generalize tensor m (cell 0) 0 1 = k01 at *
  generalize tensor m (cell 0) 0 2 = k02 at *
  generalize tensor m (cell 0) 1 1 = k11 at *
  generalize tensor m (cell 0) 1 2 = k12 at *
  generalize tensor m (cell 0) 2 2 = k22 at *
  generalize direction m x = d at *
  generalize m.normal x = n at *
  generalize distance m x = D at *
  generalize |m.gravity.x| = gx at *
  generalize |m.gravity.y| = gy at *
  generalize |m.gravity.z| = g' at *
  have n1 : n.x*(k00*d.x + k01*d.y + k02*d.z) + n.y*(k01*d.x + k11*d.y + k12*d.z)
      + n.z*(k02*d.x + k12*d.y + k22*d.z) = l*D := by
    have : l*D = l*D*(d.x^2 + d.y^2 + d.z^2) := by rw [hs, mul_one]
    rw [this]
    linear_combination d.x*hlx + d.y*hly + d.z*hlz
  rw [n1]
  linear_combination (-ρ*area x*gx)*hlx + (-ρ*area x*gy)*hly + (-ρ*area x*g')*hlz

end TDy.Mpfao.Props
