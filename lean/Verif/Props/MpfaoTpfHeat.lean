import Verif.Props.MpfaoTpf

/-! # The two-point option of MPFA-O: heat, C138 -/

namespace TDy.Mpfao.Props

open TDy.Mpfao.Spec TDy.Mpfao.Proofs Tpf

variable {v : Vtx} {m : GravCtx} {cell : Nat → Nat} {area vol6 : Nat → ℝ} {Kappa0 : Nat → ℝ}

/-- What the matrices take as the conductivity of cell `c` across face `f`: the component along the
normal of the product of the tensor with `(1,1,1)`. -/
noncomputable def diagonalSum (m : GravCtx) (Kappa0 : Nat → ℝ) (c f : Nat) : ℝ :=
  ∑ a, ∑ b, comp (m.normal f) a*kappa Kappa0 c a b

theorem tempEntry_eq {c f : Nat} {T A : ℝ} (hT : T ≠ 0) :
    entryOfG A (m.normal f) (fun a b => Kappa0 (c*9 + a*3 + b)) (nuStar m T c f) T
      = A*Geo.dot (m.normal f) (tpfDir m c f)*diagonalSum m Kappa0 c f/tpfDist m c f := by
  simp only [entryOfG, nuStar, diagonalSum, comp, kappa, Fin.sum_univ_three, Matrix.cons_val_zero,
    Matrix.cons_val_one, Matrix.cons_val]
  rw [show (0.0:ℝ) = 0 by norm_num, show (1.0:ℝ) = 1 by norm_num]
  field_simp
  ring

theorem dir_up {i f : Nat} (hu : (m.face ((v.sub i).face f)).up = cell i) :
    Geo.dot (m.normal ((v.sub i).face f)) (tpfDir m (cell i) ((v.sub i).face f))
      = -Geo.dot (m.normal ((v.sub i).face f)) (direction m ((v.sub i).face f)) ∧
    tpfDist m (cell i) ((v.sub i).face f) = (if 0 ≤ (m.face ((v.sub i).face f)).dn
      then distance m ((v.sub i).face f)/2 else distance m ((v.sub i).face f)) := by
  have e1 : tpfOther m (cell i) ((v.sub i).face f) = (m.face ((v.sub i).face f)).dn := by
    unfold tpfOther; rw [if_pos hu]
  have e2 : tpfPoint m (cell i) ((v.sub i).face f) = pointDn m ((v.sub i).face f) := by
    unfold tpfPoint pointDn; rw [e1]
  have e3 : m.cellCen (cell i) = pointUp m ((v.sub i).face f) := by
    unfold pointUp; rw [hu]; simp
  constructor
  · rw [← dot_neg]; unfold tpfDir; rw [e2, e3, unitJoin_swap]; rfl
  · unfold tpfDist distance
    rw [e1, lengthOf_eq, e2, e3, norm_swap, show (0.50:ℝ) = 1/2 by norm_num]
    split <;> ring

theorem dir_dn (ar : Around v m cell) {i f : Nat} (hu : (m.face ((v.sub i).face f)).dn = cell i) :
    Geo.dot (m.normal ((v.sub i).face f)) (tpfDir m (cell i) ((v.sub i).face f))
      = Geo.dot (m.normal ((v.sub i).face f)) (direction m ((v.sub i).face f)) ∧
    tpfDist m (cell i) ((v.sub i).face f) = (if 0 ≤ (m.face ((v.sub i).face f)).up
      then distance m ((v.sub i).face f)/2 else distance m ((v.sub i).face f)) := by
  have hn := ar.proper ((v.sub i).face f)
  rw [hu] at hn
  have e1 : tpfOther m (cell i) ((v.sub i).face f) = (m.face ((v.sub i).face f)).up := by
    unfold tpfOther; rw [if_neg hn]
  have e2 : tpfPoint m (cell i) ((v.sub i).face f) = pointUp m ((v.sub i).face f) := by
    unfold tpfPoint pointUp; rw [e1]
  have e3 : m.cellCen (cell i) = pointDn m ((v.sub i).face f) := by
    unfold pointDn; rw [hu]; simp
  constructor
  · unfold tpfDir; rw [e2, e3]; rfl
  · unfold tpfDist distance
    rw [e1, lengthOf_eq, e2, e3, show (0.50:ℝ) = 1/2 by norm_num]
    split <;> ring

theorem oneSided_heat (ft : FromTempTpf v m Kappa0 cell area vol6) {i f : Nat} (h : InRange v i f)
    (hv : vol6 i ≠ 0) (u : ℝ) (p : Nat → ℝ) : oneSided (v.sub i) u p f
      = area ((v.sub i).face f)
        *Geo.dot (m.normal ((v.sub i).face f)) (tpfDir m (cell i) ((v.sub i).face f))
        *diagonalSum m Kappa0 (cell i) ((v.sub i).face f)/tpfDist m (cell i) ((v.sub i).face f)
        *(u - p ((v.sub i).face f)) := by
  refine oneSided_diag (g := fun f => area ((v.sub i).face f)
        *Geo.dot (m.normal ((v.sub i).face f)) (tpfDir m (cell i) ((v.sub i).face f))
        *diagonalSum m Kappa0 (cell i) ((v.sub i).face f)/tpfDist m (cell i) ((v.sub i).face f)) h.2
    (fun k hk => ?_) u p
  rw [ft i f k h hk]
  unfold tpfTempG
  by_cases e : f = k
  · rw [if_pos e, if_neg (by simpa using e)]; exact tempEntry_eq hv
  · rw [if_neg e, if_pos e]

/-- The heat through an internal face, for any conductivities: that of two halves in series, with the
sums above for conductivities. -/
theorem C138_internal_formula (wf : WellFormed v) (ar : Around v m cell)
    (ft : FromTempTpf v m Kappa0 cell area vol6) (hv : ∀ i, i < v.npcen → vol6 i ≠ 0)
    {T} (hT : trans v = some T) (u tb : Nat → ℝ) {i f i' f' x r : Nat}
    (h : InRange v i f) (h' : InRange v i' f') (hx : (v.sub i).face f = x)
    (hx' : (v.sub i').face f' = x) (hI : (v.sub i).internal f = true)
    (hu : (m.face x).up = cell i) (hu' : (m.face x).dn = cell i') (hr : RowOf v r x)
    (ha : area x ≠ 0) (hc : Geo.dot (m.normal x) (direction m x) ≠ 0)
    (hp : pointUp m x ≠ pointDn m x)
    (hq : diagonalSum m Kappa0 (cell i) x + diagonalSum m Kappa0 (cell i') x ≠ 0) :
    transTimes v T u tb r = area x*Geo.dot (m.normal x) (direction m x)
      *(2*(diagonalSum m Kappa0 (cell i) x*diagonalSum m Kappa0 (cell i') x)
        /(diagonalSum m Kappa0 (cell i) x + diagonalSum m Kappa0 (cell i') x))
      *(u i' - u i)/distance m x := by
  subst hx
  obtain ⟨p, hp', -⟩ := C47_face_pressures wf hT u tb
  rw [C47_common_flux wf hT u tb p hp' h (.inl hI) hr]
  have c := hp'.continuous i f i' f' h h' hI hx'.symm
  have d : 0 < distance m ((v.sub i).face f) := norm_pos hp
  have d1 := dir_up hu
  have d2 := dir_dn ar (i := i') (f := f') (by rw [hx']; exact hu')
  rw [hx'] at d2
  rw [if_pos (by rw [hu']; omega)] at d1
  rw [if_pos (by rw [hu]; omega)] at d2
  rw [oneSided_heat ft h (hv i h.1), oneSided_heat ft h' (hv i' h'.1), hx', d1.1, d1.2, d2.1, d2.2] at c
  rw [oneSided_heat ft h (hv i h.1), d1.1, d1.2]
  generalize p ((v.sub i).face f) = q at *
  generalize diagonalSum m Kappa0 (cell i) ((v.sub i).face f) = k at *
  generalize diagonalSum m Kappa0 (cell i') ((v.sub i).face f) = k' at *
  generalize distance m ((v.sub i).face f) = D at *
  generalize Geo.dot (m.normal ((v.sub i).face f)) (direction m ((v.sub i).face f)) = n at *
  generalize area ((v.sub i).face f) = A at *
  have e : (k + k')*q = k*u i + k'*u i' := by
    field_simp at c
    linarith
  have e' : q = (k*u i + k'*u i')/(k + k') := by field_simp; linarith
  rw [e']
  field_simp
  ring

/-- The heat through a boundary face with a given temperature. -/
theorem C138_boundary_formula (wf : WellFormed v) (ar : Around v m cell)
    (ft : FromTempTpf v m Kappa0 cell area vol6) (hv : ∀ i, i < v.npcen → vol6 i ≠ 0)
    {T} (hT : trans v = some T) (u tb : Nat → ℝ) {i f x r : Nat}
    (h : InRange v i f) (hx : (v.sub i).face f = x) (hI : (v.sub i).internal f = false)
    (hd : v.dirichlet = true) (hr : RowOf v r x) :
    transTimes v T u tb r = area x*Geo.dot (m.normal x) (direction m x)
      *diagonalSum m Kappa0 (cell i) x
      *(if (m.face x).up = cell i then tb ((v.sub i).bnd f) - u i else u i - tb ((v.sub i).bnd f))
      /distance m x := by
  subst hx
  obtain ⟨p, hp, -⟩ := C47_face_pressures wf hT u tb
  rw [C47_common_flux wf hT u tb p hp h (.inr hd) hr, oneSided_heat ft h (hv i h.1)]
  have hb := hp.boundary i f h hI
  rw [if_pos hd] at hb
  rcases ar.side i f h with hu | hu
  · have := bnd_up ar h hI hu
    rw [(dir_up hu).1, (dir_up hu).2, hb, if_neg (by omega), if_pos hu]; ring
  · have := bnd_dn ar h hI hu
    rw [(dir_dn ar hu).1, (dir_dn ar hu).2, hb, if_neg (by omega), if_neg (by omega)]; ring

/-- No vertex is refused when the sums of neighbours do not cancel and the boundary has given
temperatures. -/
theorem C138_accepted (wf : WellFormed v) (ar : Around v m cell)
    (ft : FromTempTpf v m Kappa0 cell area vol6) (hv : ∀ i, i < v.npcen → vol6 i ≠ 0)
    (hd : v.dirichlet = true) (ha : ∀ i f, InRange v i f → area ((v.sub i).face f) ≠ 0)
    (hc : ∀ i f, InRange v i f →
      Geo.dot (m.normal ((v.sub i).face f)) (direction m ((v.sub i).face f)) ≠ 0)
    (hp : ∀ i f, InRange v i f → pointUp m ((v.sub i).face f) ≠ pointDn m ((v.sub i).face f))
    (hq : ∀ i f i', InRange v i f → (v.sub i).internal f = true → i' < v.npcen →
      diagonalSum m Kappa0 (cell i) ((v.sub i).face f)
        + diagonalSum m Kappa0 (cell i') ((v.sub i).face f) ≠ 0) :
    ∃ T, trans v = some T := by
  cases hT : trans v with
  | some T => exact ⟨T, rfl⟩
  | none =>
    exfalso
    obtain ⟨p, hp', i, f, h, hne⟩ := (C47_refused_iff wf).1 hT
    have key : ∀ i f i' f', InRange v i f → InRange v i' f' → (v.sub i).internal f = true →
        (v.sub i').face f' = (v.sub i).face f → (m.face ((v.sub i).face f)).up = cell i →
        (m.face ((v.sub i).face f)).dn = cell i' → p ((v.sub i).face f) = 0 := by
      intro i f i' f' h h' hI hx' b a
      have c := hp'.continuous i f i' f' h h' hI hx'.symm
      have d : 0 < distance m ((v.sub i).face f) := norm_pos (hp i f h)
      have d1 := dir_up b
      have d2 := dir_dn ar (i := i') (f := f') (by rw [hx']; exact a)
      have n0 := hc i f h
      have a0 := ha i f h
      have q0 := hq i f i' h hI h'.1
      rw [hx'] at d2
      rw [if_pos (by rw [a]; omega)] at d1
      rw [if_pos (by rw [b]; omega)] at d2
      rw [oneSided_heat ft h (hv i h.1), oneSided_heat ft h' (hv i' h'.1), hx', d1.1, d1.2, d2.1, d2.2] at c
      generalize p ((v.sub i).face f) = q at *
      generalize diagonalSum m Kappa0 (cell i) ((v.sub i).face f) = k at *
      generalize diagonalSum m Kappa0 (cell i') ((v.sub i).face f) = k' at *
      generalize distance m ((v.sub i).face f) = D at *
      generalize Geo.dot (m.normal ((v.sub i).face f)) (direction m ((v.sub i).face f)) = n at *
      generalize area ((v.sub i).face f) = A at *
      have e : (2*A*n/D)*((k + k')*q) = 0 := by
        have : (2*A*n/D)*((k + k')*q) = A*-n*k/(D/2)*(0 - q) - A*n*k'/(D/2)*(0 - q) := by
          field_simp; ring
        rw [this, c]; ring
      have : 2*A*n/D ≠ 0 := div_ne_zero (mul_ne_zero (mul_ne_zero two_ne_zero a0) n0) d.ne'
      exact (mul_eq_zero.1 ((mul_eq_zero.1 e).resolve_left this)).resolve_left q0
    apply hne
    cases hI : (v.sub i).internal f
    · have hb := hp'.boundary i f h hI
      rw [if_pos hd] at hb; exact hb
    · obtain ⟨i', f', h', hx', ⟨a, b⟩ | ⟨a, b⟩⟩ := both wf ar h hI
      · exact key i f i' f' h h' hI hx' a b
      · rw [← hx']
        rw [← hx'] at a b
        exact key i' f' i f h' h (by rw [← wf.internal_face i f i' f' h h' hx'.symm]; exact hI) hx'.symm a b

theorem diagonalSum_axis {c f : Nat} {k : Fin 3} (hn : ∀ a, comp (m.normal f) a = if a = k then 1 else 0)
    (hk : ∀ a b, a ≠ b → kappa Kappa0 c a b = 0) : diagonalSum m Kappa0 c f = kappa Kappa0 c k k := by
  unfold diagonalSum
  simp only [hn, ite_mul, one_mul, zero_mul]
  rw [Finset.sum_eq_single k (fun a _ ha => by simp [ha]) (by simp)]
  simp only [if_true]
  exact Finset.sum_eq_single k (fun b _ hb => hk k b (Ne.symm hb)) (by simp)

/-- **C138**, for faces with a positive coordinate axis as normal and diagonal conductivities: heat
is conducted as through the two halves in series.  Missing: all other faces
(`C138_reversed_violated`). -/
theorem C138_axis_partial (wf : WellFormed v) (ar : Around v m cell)
    (ft : FromTempTpf v m Kappa0 cell area vol6) (hv : ∀ i, i < v.npcen → vol6 i ≠ 0)
    {T} (hT : trans v = some T) (u tb : Nat → ℝ) {i f i' f' x r : Nat} {k : Fin 3}
    (h : InRange v i f) (h' : InRange v i' f') (hx : (v.sub i).face f = x)
    (hx' : (v.sub i').face f' = x) (hI : (v.sub i).internal f = true)
    (hu : (m.face x).up = cell i) (hu' : (m.face x).dn = cell i') (hr : RowOf v r x)
    (ha : area x ≠ 0) (hc : Geo.dot (m.normal x) (direction m x) ≠ 0)
    (hp : pointUp m x ≠ pointDn m x)
    (hn : ∀ a, comp (m.normal x) a = if a = k then 1 else 0)
    (hk : ∀ j, j = i ∨ j = i' → (∀ a b, a ≠ b → kappa Kappa0 (cell j) a b = 0) ∧
      0 < kappa Kappa0 (cell j) k k) :
    transTimes v T u tb r = area x*Geo.dot (m.normal x) (direction m x)
      *series (kappa Kappa0 (cell i) k k) (kappa Kappa0 (cell i') k k)*(u i' - u i)/distance m x := by
  obtain ⟨z1, p1⟩ := hk i (.inl rfl)
  obtain ⟨z2, p2⟩ := hk i' (.inr rfl)
  rw [C138_internal_formula wf ar ft hv hT u tb h h' hx hx' hI hu hu' hr ha hc hp
    (by rw [diagonalSum_axis hn z1, diagonalSum_axis hn z2]; positivity),
    diagonalSum_axis hn z1, diagonalSum_axis hn z2]
  unfold series
  congr 3
  field_simp
  ring

theorem diagonalSum_iso {c f : Nat} {k : ℝ} (hk : Isotropic Kappa0 c k) :
    diagonalSum m Kappa0 c f = k*((m.normal f).x + (m.normal f).y + (m.normal f).z) := by
  unfold diagonalSum
  simp only [hk _ _, Fin.sum_univ_three, comp, Matrix.cons_val_zero, Matrix.cons_val_one, Matrix.cons_val]
  simp
  ring

/-- **C138** fails for every face whose normal has a negative sum of components, in the simplest
medium there is: the heat goes from the cold side to the hot side (the row has the sign opposite to
that of `n · ∇T`). -/
theorem C138_reversed_violated (wf : WellFormed v) (ar : Around v m cell)
    (ft : FromTempTpf v m Kappa0 cell area vol6) (hv : ∀ i, i < v.npcen → vol6 i ≠ 0)
    {T} (hT : trans v = some T) (u tb : Nat → ℝ) {i f i' f' x r : Nat} {k : ℝ}
    (h : InRange v i f) (h' : InRange v i' f') (hx : (v.sub i).face f = x)
    (hx' : (v.sub i').face f' = x) (hI : (v.sub i).internal f = true)
    (hu : (m.face x).up = cell i) (hu' : (m.face x).dn = cell i') (hr : RowOf v r x)
    (ha : 0 < area x) (hc : 0 < Geo.dot (m.normal x) (direction m x))
    (hp : pointUp m x ≠ pointDn m x) (hk : 0 < k)
    (iso : ∀ j, j < v.npcen → Isotropic Kappa0 (cell j) k)
    (neg : (m.normal x).x + (m.normal x).y + (m.normal x).z < 0) (hot : u i < u i') :
    transTimes v T u tb r < 0 := by
  have e := diagonalSum_iso (f := x) (m := m) (iso i h.1)
  have e' := diagonalSum_iso (f := x) (m := m) (iso i' h'.1)
  have q : k*((m.normal x).x + (m.normal x).y + (m.normal x).z) < 0 := mul_neg_of_pos_of_neg hk neg
  rw [C138_internal_formula wf ar ft hv hT u tb h h' hx hx' hI hu hu' hr ha.ne' hc.ne' hp
    (by rw [e, e']; linarith), e, e']
  generalize k*((m.normal x).x + (m.normal x).y + (m.normal x).z) = s at *
  have d : 0 < distance m x := norm_pos hp
  have hs : 2*(s*s)/(s+s) = s := by field_simp [q.ne]; ring
  rw [hs]
  apply div_neg_of_neg_of_pos _ d
  exact mul_neg_of_neg_of_pos (mul_neg_of_pos_of_neg (mul_pos ha hc) q) (by linarith)

/-- The same on the boundary, when the normal has a negative sum: the down side is the hotter one and
heat flows into it. -/
theorem C138_boundary_violated (wf : WellFormed v) (ar : Around v m cell)
    (ft : FromTempTpf v m Kappa0 cell area vol6) (hv : ∀ i, i < v.npcen → vol6 i ≠ 0)
    {T} (hT : trans v = some T) (u tb : Nat → ℝ) {i f x r : Nat} {k : ℝ}
    (h : InRange v i f) (hx : (v.sub i).face f = x) (hI : (v.sub i).internal f = false)
    (hd : v.dirichlet = true) (hr : RowOf v r x)
    (ha : 0 < area x) (hc : 0 < Geo.dot (m.normal x) (direction m x))
    (hp : pointUp m x ≠ pointDn m x) (hk : 0 < k) (iso : Isotropic Kappa0 (cell i) k)
    (neg : (m.normal x).x + (m.normal x).y + (m.normal x).z < 0)
    (hot : if (m.face x).up = cell i then u i < tb ((v.sub i).bnd f) else tb ((v.sub i).bnd f) < u i) :
    transTimes v T u tb r < 0 := by
  rw [C138_boundary_formula wf ar ft hv hT u tb h hx hI hd hr, diagonalSum_iso iso]
  have d : 0 < distance m x := norm_pos hp
  apply div_neg_of_neg_of_pos _ d
  exact mul_neg_of_neg_of_pos (mul_neg_of_pos_of_neg (mul_pos ha hc) (mul_neg_of_pos_of_neg hk neg))
    (by split_ifs at hot ⊢ <;> linarith)

end TDy.Mpfao.Props
