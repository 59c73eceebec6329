import Verif.Spec.CoupledParallel
import Verif.Props.MpfaoParallel
import Verif.Props.MpfaoCoupled

/-!
# C190: the equations of the coupled modes and the number of processes
-/

namespace TDy.Mpfao.Props

open TDy.Mpfao TDy.Mpfao.Spec TDy.Mpfao.Proofs Finset
open TDy.Fvtpf (Side Bc)

noncomputable section

/-! ### Concentrations and temperatures in the place of pressures -/

open Classical in
/-- The context whose transmissibilities and pressures are those of the salt. -/
def saltCtx (s : Sal) : Ctx :=
  { s.base with
    vert := fun v => { s.base.vert v with
      M := fun i j => if s.corner v = true ∧ s.base.bc ≠ .neumann then s.psiM v i j else 0 }
    cells := fun i => { s.base.cells i with P := s.psi i }
    bnds := fun i => { s.base.bnds i with P := s.psiBnd i } }

theorem ttimesPsi_eq (s : Sal) (row : Nat) : ttimesPsi s row = ttimesP (saltCtx s) row := by
  unfold ttimesPsi ttimesP
  refine sum_congr rfl fun j _ => ?_
  have e : psiMat s row j = transMat (saltCtx s) row j := by
    rw [psiMat_apply, transMat_apply]
    refine sum_congr rfl fun v _ => sum_congr rfl fun i _ => ?_
    by_cases hl : (s.base.vert v).isLocal = true
    · by_cases hc : s.corner v = true ∧ s.base.bc ≠ .neumann
      · rw [if_pos ⟨hl, hc⟩]
        simp only [saltCtx, hl, if_true]
        refine sum_congr rfl fun j' _ => ?_
        simp only [hc, ne_eq, not_false_eq_true, and_self, if_true]
        rfl
      · rw [if_neg (fun k => hc k.2)]
        simp only [saltCtx, hl, if_true]
        symm
        refine sum_eq_zero fun j' _ => ?_
        rw [if_neg hc, ite_self]
    · rw [if_neg (fun k => hl k.1)]
      simp [saltCtx, hl]
  have p : psiVec s j = pVec (saltCtx s) j := rfl
  rw [e, p]

/-- The context whose transmissibilities and pressures are those of the heat. -/
def heatPlainCtx (t : Th) : Ctx :=
  { heatCtx t with
    cells := fun i => { t.base.cells i with P := (t.heat i).T }
    bnds := fun i => { t.base.bnds i with P := t.tBnd i } }

theorem ttimesTemp_plain (t : Th) (row : Nat) : ttimesTemp t row = ttimesP (heatPlainCtx t) row := rfl

theorem seesSaltCtx {g l : Sal} {w : View} (h : SeesSalt g l w) : Sees (saltCtx g) (saltCtx l) w where
  cellLt := h.base.cellLt
  cellInj := h.base.cellInj
  cells := fun a ha => by
    obtain ⟨e1, e2, e3, e4⟩ := h.base.cells a ha
    refine ⟨?_, e2, e3, e4⟩
    change ({ l.base.cells a with P := l.psi a } : Side) = { g.base.cells (w.cell a) with P := g.psi (w.cell a) }
    rw [e1, (h.cells a ha).1]
  bndLt := h.base.bndLt
  bnds := fun b hb => by
    change ({ l.base.bnds b with P := l.psiBnd b } : Side) = { g.base.bnds (w.bnd b) with P := g.psiBnd (w.bnd b) }
    rw [h.base.bnds b hb, h.bnds b hb]
  bc := h.base.bc
  pref := h.base.pref
  vertLt := h.base.vertLt
  vertInj := h.base.vertInj
  rows := h.base.rows
  rowLt := h.base.rowLt
  rowInj := h.base.rowInj
  upOk := h.base.upOk
  dnOk := h.base.dnOk
  sides := h.base.sides
  flipped := h.base.flipped
  grav := h.base.grav
  trans := fun v i hs J => by
    change (∑ j ∈ range (l.base.vert v).nCols,
      if w.column g.base l.base ((l.base.vert v).col j) = J then
        (if l.corner v = true ∧ l.base.bc ≠ .neumann then l.psiM v i j else 0) else 0) =
      w.sign v i*∑ j ∈ range (g.base.vert (w.vert v)).nCols,
        if (g.base.vert (w.vert v)).col j = J then
          (if g.corner (w.vert v) = true ∧ g.base.bc ≠ .neumann then g.psiM (w.vert v) (w.row v i) j
            else 0) else 0
    rw [← h.corner v hs.1.1 hs.2, ← h.base.bc]
    by_cases hc : l.corner v = true ∧ l.base.bc ≠ .neumann
    · simp only [if_pos hc]
      exact h.trans v i hs hc.1 J
    · simp only [if_neg hc, ite_self, sum_const_zero, mul_zero]
  touch := h.base.touch
  cover := h.base.cover

theorem seesTempCtx {g l : Th} {w : View} (h : SeesHeat g l w) : Sees (heatPlainCtx g) (heatPlainCtx l) w where
  cellLt := h.base.cellLt
  cellInj := h.base.cellInj
  cells := fun a ha => by
    obtain ⟨e1, e2, e3, e4⟩ := h.base.cells a ha
    refine ⟨?_, e2, e3, e4⟩
    change ({ l.base.cells a with P := (l.heat a).T } : Side)
      = { g.base.cells (w.cell a) with P := (g.heat (w.cell a)).T }
    rw [e1, h.cells a ha]
  bndLt := h.base.bndLt
  bnds := fun b hb => by
    change ({ l.base.bnds b with P := l.tBnd b } : Side) = { g.base.bnds (w.bnd b) with P := g.tBnd (w.bnd b) }
    rw [h.base.bnds b hb, (h.bnds b hb).1]
  bc := h.base.bc
  pref := h.base.pref
  vertLt := h.base.vertLt
  vertInj := h.base.vertInj
  rows := h.base.rows
  rowLt := h.base.rowLt
  rowInj := h.base.rowInj
  upOk := h.base.upOk
  dnOk := h.base.dnOk
  sides := h.base.sides
  flipped := h.base.flipped
  grav := h.base.grav
  trans := h.trans
  touch := h.base.touch
  cover := h.base.cover

/-! ### Fluxes -/

section
variable {g l : Ctx} {w : View}

/-- The two sides of a subface, in the order of the process or in the other one. -/
theorem sides_seen (h : Sees g l w) (v i : Nat) (hs : LocalSubface l v i) :
    (w.flip v i = false ∧ w.sign v i = 1 ∧
      w.side (faceOf l v i).up = (faceOf g (w.vert v) (w.row v i)).up ∧
      w.side (faceOf l v i).dn = (faceOf g (w.vert v) (w.row v i)).dn) ∨
    (w.flip v i = true ∧ w.sign v i = -1 ∧
      w.side (faceOf l v i).up = (faceOf g (w.vert v) (w.row v i)).dn ∧
      w.side (faceOf l v i).dn = (faceOf g (w.vert v) (w.row v i)).up) := by
  cases hf : w.flip v i
  · exact Or.inl ⟨rfl, by simp [View.sign, hf], h.sides v i hs hf⟩
  · exact Or.inr ⟨rfl, by simp [View.sign, hf], h.flipped v i hs hf⟩

theorem denAvg_seen (h : Sees g l w) (v i : Nat) (hs : LocalSubface l v i) :
    denAvg l (faceOf l v i) = denAvg g (faceOf g (w.vert v) (w.row v i)) := by
  unfold denAvg
  rw [side_seen h _ (h.upOk v i hs), side_seen h _ (h.dnOk v i hs)]
  rcases sides_seen h v i hs with ⟨-, -, e1, e2⟩ | ⟨-, -, e1, e2⟩
  · rw [e1, e2]
  · rw [e1, e2, add_right_comm]

/-- What is taken from the upwind side is the same, unless the pressures do not drive a flow and the sides
are named in the other order. -/
theorem upwind_seen (h : Sees g l w) (v i : Nat) (hs : LocalSubface l v i) (x X : ℤ → ℝ)
    (hx : ∀ id, SideOk l id → x id = X (w.side id)) (TP : ℝ) (hne : w.flip v i = true → TP ≠ 0) :
    (if w.sign v i*TP < 0.0 then x (faceOf l v i).up else x (faceOf l v i).dn) =
      if TP < 0.0 then X (faceOf g (w.vert v) (w.row v i)).up
        else X (faceOf g (w.vert v) (w.row v i)).dn := by
  have z : (0.0:ℝ) = 0 := by norm_num
  rw [hx _ (h.upOk v i hs), hx _ (h.dnOk v i hs), z]
  rcases sides_seen h v i hs with ⟨-, e, e1, e2⟩ | ⟨hf, e, e1, e2⟩
  · rw [e, one_mul, e1, e2]
  · rw [e, neg_one_mul, e1, e2]
    have hn := hne hf
    by_cases hp : TP < 0
    · rw [if_pos hp, if_neg (by linarith)]
    · rw [if_neg hp, if_pos (by have := lt_of_le_of_ne (not_lt.1 hp) (Ne.symm hn); linarith)]

theorem ukvrTP_seen (h : Sees g l w) (v i : Nat) (hs : LocalSubface l v i) (TP : ℝ)
    (hne : w.flip v i = true → TP ≠ 0) :
    ukvrTP l (faceOf l v i) (w.sign v i*TP) = ukvrTP g (faceOf g (w.vert v) (w.row v i)) TP :=
  upwind_seen h v i hs (fun id => (side l id).Kr/(side l id).vis)
    (fun id => (side g id).Kr/(side g id).vis) (fun id hid => by rw [side_seen h id hid]) TP hne

/-- The flow that goes with the mobility of the upwind side. -/
theorem flow_seen (h : Sees g l w) (v i : Nat) (hs : LocalSubface l v i) (TP : ℝ) :
    ukvrTP l (faceOf l v i) (w.sign v i*TP)*(-(w.sign v i*TP)) =
      w.sign v i*(ukvrTP g (faceOf g (w.vert v) (w.row v i)) TP*(-TP)) := by
  by_cases h0 : TP = 0
  · rw [h0]; ring
  · rw [ukvrTP_seen h v i hs TP (fun _ => h0)]; ring

end

theorem salFluxm_seen {g l : Sal} {w : View} (own : OwnsAll g.base) (h : SeesSalt g l w)
    (ag : Addressed g.base) (al : Addressed l.base) (drv : PressureDriven g.base l.base w) (v i : Nat)
    (hs : LocalSubface l.base v i) :
    salFluxm l v i = w.sign v i*salFluxm g (w.vert v) (w.row v i) := by
  have ht := ttimesP_seen own h.base ag al v i hs
  have hd := denAvg_seen h.base v i hs
  have hf := flow_seen h.base v i hs (ttimesP g.base (slot (g.base.vert (w.vert v)) (w.row v i)))
  have hg := h.base.grav v i hs
  unfold salFluxm
  simp only
  change denAvg l.base (faceOf l.base v i)*_ + -denAvg l.base (faceOf l.base v i) ^ (2:ℕ)*_*_ = _
  rw [ht, hd]
  change denAvg g.base _*(ukvrTP l.base (faceOf l.base v i) _*_) +
    -denAvg g.base _ ^ (2:ℕ)*ukvrTP l.base (faceOf l.base v i) _*_ = _
  rw [hf, hg]
  change _ = w.sign v i*(denAvg g.base (faceOf g.base (w.vert v) (w.row v i))*
    (ukvrTP g.base (faceOf g.base (w.vert v) (w.row v i)) _*_) +
    -denAvg g.base (faceOf g.base (w.vert v) (w.row v i)) ^ (2:ℕ)*
      ukvrTP g.base (faceOf g.base (w.vert v) (w.row v i)) _*_)
  by_cases hz : w.flip v i = true ∧ g.base.grav (slot (g.base.vert (w.vert v)) (w.row v i)) = 0
  · rw [hz.2]; ring
  · rw [ukvrTP_seen h.base v i hs _ (fun hfl => ?_)]
    · ring
    · rcases drv v i hs hfl with k | k
      · exact k
      · exact absurd ⟨hfl, k⟩ hz

theorem salFluxt_seen {g l : Sal} {w : View} (own : OwnsAll g.base) (h : SeesSalt g l w)
    (ag : Addressed g.base) (al : Addressed l.base) (v i : Nat) (hs : LocalSubface l.base v i) :
    salFluxt l v i = w.sign v i*salFluxt g (w.vert v) (w.row v i) := by
  have ht := ttimesP_seen own h.base ag al v i hs
  have hd := denAvg_seen h.base v i hs
  have hf := flow_seen h.base v i hs (ttimesP g.base (slot (g.base.vert (w.vert v)) (w.row v i)))
  have hp : ttimesPsi l (slot (l.base.vert v) i) =
      w.sign v i*ttimesPsi g (slot (g.base.vert (w.vert v)) (w.row v i)) := by
    rw [ttimesPsi_eq, ttimesPsi_eq]
    exact ttimesP_seen (g := saltCtx g) (l := saltCtx l) { cell := own.cell, face := own.face, vert := own.vert } (seesSaltCtx h)
      ⟨ag.slots, ag.own, ag.cols⟩ ⟨al.slots, al.own, al.cols⟩ v i hs
  unfold salFluxt
  simp only
  change denAvg l.base (faceOf l.base v i)*_ - denAvg l.base (faceOf l.base v i)*_ = _
  rw [ht, hd, hp]
  change denAvg g.base _*(ukvrTP l.base (faceOf l.base v i) _*_) - _ = _
  rw [hf]
  change _ = w.sign v i*(denAvg g.base (faceOf g.base (w.vert v) (w.row v i))*
    (ukvrTP g.base (faceOf g.base (w.vert v) (w.row v i)) _*_) -
    denAvg g.base (faceOf g.base (w.vert v) (w.row v i))*_)
  ring

theorem chop_sign (eps x : ℝ) (w : View) (v i : Nat) :
    chop eps (w.sign v i*x) = w.sign v i*chop eps x := by
  have z : (0.0:ℝ) = 0 := by norm_num
  unfold chop View.sign
  rw [z]
  cases w.flip v i
  · simp
  · simp only [if_true, neg_one_mul, abs_neg]
    split <;> simp

theorem thTP_seen {g l : Th} {w : View} (own : OwnsAll g.base) (h : SeesHeat g l w)
    (ag : Addressed g.base) (al : Addressed l.base) (v i : Nat) (hs : LocalSubface l.base v i) :
    thTP l v i = w.sign v i*thTP g (w.vert v) (w.row v i) := by
  unfold thTP
  rw [ttimesP_seen own h.base ag al v i hs, h.eps, chop_sign]

theorem thTempTP_seen {g l : Th} {w : View} (own : OwnsAll g.base) (h : SeesHeat g l w)
    (ag : Addressed g.base) (al : Addressed l.base) (v i : Nat) (hs : LocalSubface l.base v i) :
    thTempTP l v i = w.sign v i*thTempTP g (w.vert v) (w.row v i) := by
  unfold thTempTP
  rw [ttimesTemp_plain, ttimesTemp_plain]
  have := ttimesP_seen (g := heatPlainCtx g) (l := heatPlainCtx l) { cell := own.cell, face := own.face, vert := own.vert } (seesTempCtx h)
      ⟨ag.slots, ag.own, ag.cols⟩ ⟨al.slots, al.own, al.cols⟩ v i hs
  change ttimesP (heatPlainCtx l) (slot (l.base.vert v) i) = _ at this
  rw [this, h.eps, chop_sign]
  rfl

theorem thFluxm_seen {g l : Th} {w : View} (own : OwnsAll g.base) (h : SeesHeat g l w)
    (ag : Addressed g.base) (al : Addressed l.base) (v i : Nat) (hs : LocalSubface l.base v i) :
    thFluxm l v i = w.sign v i*thFluxm g (w.vert v) (w.row v i) := by
  have hf := flow_seen h.base v i hs (thTP g (w.vert v) (w.row v i))
  unfold thFluxm
  simp only
  rw [thTP_seen own h ag al v i hs]
  change denAvg l.base (faceOf l.base v i)*(ukvrTP l.base (faceOf l.base v i) _*_) = _
  rw [denAvg_seen h.base v i hs, hf]
  change _ = w.sign v i*(denAvg g.base (faceOf g.base (w.vert v) (w.row v i))*
    (ukvrTP g.base (faceOf g.base (w.vert v) (w.row v i)) _*_))
  ring

theorem hSide_seen {g l : Th} {w : View} (h : SeesHeat g l w) (id : ℤ) (hid : SideOk l.base id) :
    hSide l id = hSide g (w.side id) := by
  unfold hSide View.side
  by_cases h0 : 0 ≤ id
  · rw [if_pos h0, if_pos h0, if_pos (by omega)]
    have ha : id.toNat < l.base.numCells := by have := hid.2; omega
    rw [h.cells _ ha]
    rfl
  · have hb : (-id - 1).toNat < l.base.numBnd := by have := hid.1; omega
    rw [if_neg h0, if_neg h0, if_neg (by omega), (h.bnds _ hb).2]
    congr 1
    omega

theorem thFluxe_seen {g l : Th} {w : View} (own : OwnsAll g.base) (h : SeesHeat g l w)
    (ag : Addressed g.base) (al : Addressed l.base) (v i : Nat) (hs : LocalSubface l.base v i) :
    thFluxe l v i = w.sign v i*thFluxe g (w.vert v) (w.row v i) := by
  have hf := flow_seen h.base v i hs (thTP g (w.vert v) (w.row v i))
  unfold thFluxe
  simp only
  rw [thTP_seen own h ag al v i hs, thTempTP_seen own h ag al v i hs]
  change denAvg l.base (faceOf l.base v i)*(ukvrTP l.base (faceOf l.base v i) _*_)*
    uhTP l (faceOf l.base v i) _ + _ = _
  rw [denAvg_seen h.base v i hs, hf]
  change _ = w.sign v i*(denAvg g.base (faceOf g.base (w.vert v) (w.row v i))*
    (ukvrTP g.base (faceOf g.base (w.vert v) (w.row v i)) _*_)*
    uhTP g (faceOf g.base (w.vert v) (w.row v i)) _ + _)
  by_cases h0 : thTP g (w.vert v) (w.row v i) = 0
  · rw [h0]; ring
  · have hu : uhTP l (faceOf l.base v i) (w.sign v i*thTP g (w.vert v) (w.row v i)) =
        uhTP g (faceOf g.base (w.vert v) (w.row v i)) (thTP g (w.vert v) (w.row v i)) :=
      upwind_seen h.base v i hs (hSide l) (hSide g) (fun id hid => hSide_seen h id hid) _ (fun _ => h0)
    rw [hu]; ring

/-! ### The residuals -/

/-- Salinity mode: the water and the salt balance of a cell a process owns are the ones a single process
computes, the salt balance in every state; the water balance if pressures drive the flow where the sides are
named in the other order.  Missing for the full statement: subfaces without a pressure-driven flow on which
gravity acts (`C190_salt_violated`). -/
theorem C190_salt_partial (g l : Sal) (w : View) (own : OwnsAll g.base) (h : SeesSalt g l w)
    (ag : Addressed g.base) (al : Addressed l.base) (a : Nat) (ha : a < l.base.numCells)
    (hl : l.base.isLocal a = true) (dtime : ℝ) (prev Prev : Nat → ℝ) :
    (PressureDriven g.base l.base w → prev (2*a) = Prev (2*w.cell a) →
      salFunction l dtime prev (2*a) = salFunction g dtime Prev (2*w.cell a)) ∧
    (prev (2*a + 1) = Prev (2*w.cell a + 1) →
      salFunction l dtime prev (2*a + 1) = salFunction g dtime Prev (2*w.cell a + 1)) := by
  have hp : l.base.isLocal a = true := hl
  obtain ⟨e1, e2, e3, e4⟩ := h.base.cells a ha
  obtain ⟨e5, e6⟩ := h.cells a ha
  constructor
  · intro drv hprev
    unfold salFunction
    rw [(salCellLoop_apply l _ _ _ a).1, (salCellLoop_apply g _ _ _ (w.cell a)).1, if_pos ⟨ha, hp⟩,
      if_pos ⟨h.base.cellLt a ha, own.cell _⟩, vertexLoop2_even, vertexLoop2_even,
      vertexLoop_seen own h.base a ha hl _ (salFluxm g)
        (fun v i hs => salFluxm_seen own h ag al drv v i hs)]
    unfold snesAccum
    rw [e1, e2, e3, e4, hprev]
  · intro hprev
    unfold salFunction
    rw [(salCellLoop_apply l _ _ _ a).2, (salCellLoop_apply g _ _ _ (w.cell a)).2, if_pos ⟨ha, hp⟩,
      if_pos ⟨h.base.cellLt a ha, own.cell _⟩, vertexLoop2_odd, vertexLoop2_odd,
      vertexLoop_seen own h.base a ha hl _ (salFluxt g)
        (fun v i hs => salFluxt_seen own h ag al v i hs)]
    unfold saltAccum
    rw [e1, e2, e3, e5, e6, hprev]

/-- Salinity mode: so are the water and the salt of the last step. -/
theorem C190_salt_previous (g l : Sal) (w : View) (own : OwnsAll g.base) (h : SeesSalt g l w) (a : Nat)
    (ha : a < l.base.numCells) (hl : l.base.isLocal a = true) (dtime : ℝ) (old Old : Nat → ℝ) :
    salPreSolve l dtime old (2*a) = salPreSolve g dtime Old (2*w.cell a) ∧
    salPreSolve l dtime old (2*a + 1) = salPreSolve g dtime Old (2*w.cell a + 1) := by
  have h1 := salPreSolve_apply l dtime old a ha hl
  have h2 := salPreSolve_apply g dtime Old (w.cell a) (h.base.cellLt a ha) (own.cell _)
  obtain ⟨e1, e2, e3, -⟩ := h.base.cells a ha
  rw [h1.1, h1.2, h2.1, h2.2]
  unfold snesAccum saltAccum
  rw [e1, e2, e3, (h.cells a ha).1]
  exact ⟨rfl, rfl⟩

/-- Water and heat: what leaves a cell a process owns is what leaves it for a single process, water and
energy, in every state. -/
theorem C190_heat_outflow (g l : Th) (w : View) (own : OwnsAll g.base) (h : SeesHeat g l w)
    (ag : Addressed g.base) (al : Addressed l.base) (a : Nat) (ha : a < l.base.numCells)
    (hl : l.base.isLocal a = true) :
    vertexLoop2 l.base (thFluxm l) (thFluxe l) (fun _ => 0) (2*a) =
      vertexLoop2 g.base (thFluxm g) (thFluxe g) (fun _ => 0) (2*w.cell a) ∧
    vertexLoop2 l.base (thFluxm l) (thFluxe l) (fun _ => 0) (2*a + 1) =
      vertexLoop2 g.base (thFluxm g) (thFluxe g) (fun _ => 0) (2*w.cell a + 1) := by
  rw [vertexLoop2_even, vertexLoop2_even, vertexLoop2_odd, vertexLoop2_odd]
  exact ⟨vertexLoop_seen own h.base a ha hl _ (thFluxm g)
      (fun v i hs => thFluxm_seen own h ag al v i hs),
    vertexLoop_seen own h.base a ha hl _ (thFluxe g)
      (fun v i hs => thFluxe_seen own h ag al v i hs)⟩

/-- Water and heat: the two balances are the same for a cell before the first ghost cell.  Missing for the
full statement: the cells behind one (`C190_heat_violated`). -/
theorem C190_heat_partial (g l : Th) (w : View) (own : OwnsAll g.base) (h : SeesHeat g l w)
    (ag : Addressed g.base) (al : Addressed l.base) (a : Nat) (ha : a < l.base.numCells)
    (hl : GhostsLast l.base a) (dpdt dTdt Dpdt DTdt : Nat → ℝ) (hp : dpdt a = Dpdt (w.cell a))
    (hT : dTdt a = DTdt (w.cell a)) :
    thFunction l dpdt dTdt (2*a) = thFunction g Dpdt DTdt (2*w.cell a) ∧
    thFunction l dpdt dTdt (2*a + 1) = thFunction g Dpdt DTdt (2*w.cell a + 1) := by
  have h1 := C96_storage_partial l dpdt dTdt a ha hl
  have h2 := C96_storage_partial g Dpdt DTdt (w.cell a) (h.base.cellLt a ha) (fun k _ => own.cell k)
  have ho := C190_heat_outflow g l w own h ag al a ha (hl a (le_refl a))
  rw [vertexLoop2_even, vertexLoop2_even, vertexLoop2_odd, vertexLoop2_odd] at ho
  obtain ⟨e1, e2, e3, e4⟩ := h.base.cells a ha
  rw [h1.1, h1.2, h2.1, h2.2, ho.1, ho.2, e2, e4, hp, hT, h.cells a ha]
  unfold thDmassdP thDmassdT thDenergydP thDenergydT
  rw [e1, e3, h.cells a ha]
  exact ⟨rfl, rfl⟩

/-! ### Views of the same mesh -/

/-- What a process holds that has the whole mesh in the same order but does not own all cells. -/
theorem sees_plain (g : Ctx) (own : OwnsAll g) (isLocal : Nat → Bool)
    (ok : ∀ v i, IsSubface g v i → SideOk g (faceOf g v i).up ∧ SideOk g (faceOf g v i).dn) :
    Sees g { g with isLocal := isLocal } plainView where
  cellLt := fun a ha => ha
  cellInj := fun a _ b _ e => e
  cells := fun a _ => ⟨rfl, rfl, rfl, rfl⟩
  bndLt := fun b hb => hb
  bnds := fun b _ => rfl
  bc := rfl
  pref := rfl
  vertLt := fun v hv _ => hv
  vertInj := fun v _ v' _ _ _ e => e
  rows := fun v _ _ => rfl
  rowLt := fun v i hs => hs.1.2
  rowInj := fun v i i' _ _ e => e
  upOk := fun v i hs => (ok v i hs.1).1
  dnOk := fun v i hs => (ok v i hs.1).2
  sides := fun v i hs _ => by
    have key : ∀ id : ℤ, plainView.side id = id := by
      intro k; unfold View.side plainView; split <;> simp only [id] <;> omega
    rw [key, key]; exact ⟨rfl, rfl⟩
  flipped := fun v i _ hf => by simp [plainView] at hf
  grav := fun v i _ => by simp [View.sign, plainView]
  trans := fun v i _ J => by
    have hc : ∀ j, plainView.column g { g with isLocal := isLocal } j = j := by
      intro j; unfold View.column plainView; split <;> simp only [id] at * <;> omega
    simp only [hc]
    change _ = (1:ℝ)*_
    rw [one_mul]
    rfl
  touch := fun v i _ _ => ⟨own.vert v, own.face _⟩
  cover := fun a _ _ V I hs _ => ⟨V, hs.1, own.vert V, rfl⟩

/-- What a process holds that has the whole mesh and names the sides of every face in the other order. -/
theorem sees_swapped (g : Ctx) (own : OwnsAll g)
    (ok : ∀ v i, IsSubface g v i → SideOk g (faceOf g v i).up ∧ SideOk g (faceOf g v i).dn) :
    Sees g (swapSides g) swapView where
  cellLt := fun a ha => ha
  cellInj := fun a _ b _ e => e
  cells := fun a _ => ⟨rfl, rfl, rfl, rfl⟩
  bndLt := fun b hb => hb
  bnds := fun b _ => rfl
  bc := rfl
  pref := rfl
  vertLt := fun v hv _ => hv
  vertInj := fun v _ v' _ _ _ e => e
  rows := fun v _ _ => rfl
  rowLt := fun v i hs => hs.1.2
  rowInj := fun v i i' _ _ e => e
  upOk := fun v i hs => (ok v i hs.1).2
  dnOk := fun v i hs => (ok v i hs.1).1
  sides := fun v i hs hf => by simp [swapView] at hf
  flipped := fun v i _ _ => by
    have key : ∀ id : ℤ, swapView.side id = id := by
      intro k; unfold View.side swapView; split <;> simp only [id] <;> omega
    rw [key, key]; exact ⟨rfl, rfl⟩
  grav := fun v i _ => by
    change -g.grav _ = _
    simp [View.sign, swapView]
    rfl
  trans := fun v i _ J => by
    have hc : ∀ j, swapView.column g (swapSides g) j = j := by
      intro j; unfold View.column swapView swapSides; split <;> simp only [id] at * <;> omega
    simp only [hc]
    change (∑ j ∈ range (g.vert v).nCols, if (g.vert v).col j = J then -(g.vert v).M i j else 0) =
      (-1)*∑ j ∈ range (g.vert v).nCols, if (g.vert v).col j = J then (g.vert v).M i j else 0
    rw [mul_sum]
    refine sum_congr rfl fun j _ => ?_
    split <;> simp
  touch := fun v i _ _ => ⟨own.vert v, own.face _⟩
  cover := fun a _ _ V I hs _ => ⟨V, hs.1, own.vert V, rfl⟩

/-! ### Violations -/

namespace SwapWitness

/-- Two cells at the same pressure, one above the other, with different mobilities. -/
def c : Ctx :=
  { numVertices := 1, numCells := 2, numBnd := 0
    vert := fun _ => { isLocal := true, nRows := 1, face := id, subface := fun _ => 0, wsub := fun _ => 0
                       nCells := 2, cell := id, T := FluxWitness.M, nCols := 2, col := id
                       M := FluxWitness.M }
    face := fun _ => ⟨0, 1, true⟩
    isLocal := fun _ => true, vol := fun _ => 1, por := fun _ => 1, source := fun _ => 0
    cells := fun j => match j with
      | 0 => FluxWitness.s 5
      | _ => { FluxWitness.s 5 with Kr := 1/2 }
    d2S := fun _ => 0, d2rho := fun _ => 0, bnds := fun _ => FluxWitness.s 5, bc := .neumann, Pref := 0
    grav := fun _ => 1 }

def salt (b : Ctx) : Sal :=
  { base := b, corner := fun _ => false, psiM := fun _ _ _ => 0, psi := fun _ => 0, psiBnd := fun _ => 0
    saltSource := fun _ => 0 }

theorem owns : OwnsAll c := ⟨fun _ => rfl, fun _ => rfl, fun _ => rfl⟩

theorem sidesOk (v i : Nat) (_ : IsSubface c v i) :
    SideOk c (faceOf c v i).up ∧ SideOk c (faceOf c v i).dn := by
  simp [SideOk, faceOf, c]

theorem sees : SeesSalt (salt c) (salt (swapSides c)) swapView where
  base := sees_swapped c owns sidesOk
  cells := fun _ _ => ⟨rfl, rfl⟩
  bnds := fun _ _ => rfl
  corner := fun _ _ _ => rfl
  trans := fun _ _ _ hc => by simp [salt] at hc

theorem addressed : Addressed c := by
  refine ⟨?_, fun v i hs => rfl, ?_⟩
  · intro v i v' i' hs hs' _
    have h1 := hs.1
    have h2 := hs'.1
    simp only [IsSubface, c] at h1 h2
    omega
  · intro v hv _ j hj
    simp only [c, id] at hj ⊢
    omega

theorem addressed_swapped : Addressed (swapSides c) := ⟨addressed.slots, addressed.own, addressed.cols⟩

theorem atRest (k : Nat) : ttimesP c k = 0 ∧ ttimesP (swapSides c) k = 0 := by
  constructor <;>
    simp [ttimesP, transMat_apply, swapSides, c, FluxWitness.M, FluxWitness.s, pVec, sum_range_succ] <;>
    split <;> norm_num

theorem outflow (r : Nat → ℝ) :
    salFunction (salt c) 1 r 0 = 1 - r 0 - 1/2 ∧ salFunction (salt (swapSides c)) 1 r 0 = 1 - r 0 - 1 := by
  have e : ∀ b : Ctx, (∀ k, ttimesP b k = 0) → b.numCells = 2 → (∀ j, b.isLocal j = true) →
      (b.cells 0) = FluxWitness.s 5 → b.por 0 = 1 → b.vol 0 = 1 → b.source 0 = 0 →
      salFunction (salt b) 1 r 0 = 1 - r 0 + vertexLoop b (fun v i =>
        -denAvg b (faceOf b v i) ^ (2:ℕ)*ukvrTP b (faceOf b v i) 0*b.grav (slot (b.vert v) i)) (fun _ => 0) 0 := by
    intro b h0 hn hl hc hp hv hsrc
    have := (salCellLoop_apply (salt b) 1 r
      (vertexLoop2 b (salFluxm (salt b)) (salFluxt (salt b)) (fun _ => 0)) 0).1
    unfold salFunction
    change salCellLoop (salt b) 1 r _ (2*0) = _
    refine this.trans ?_
    rw [vertexLoop2_even, if_pos ⟨by rw [show (salt b).base = b from rfl, hn]; omega, hl 0⟩]
    have hq : salFluxm (salt b) = fun v i => -denAvg b (faceOf b v i) ^ (2:ℕ)*ukvrTP b (faceOf b v i) 0*
        b.grav (slot (b.vert v) i) := by
      funext v i
      unfold salFluxm
      simp only [show (salt b).base = b from rfl, h0]
      unfold faceOf
      ring
    rw [hq]
    change _ + (snesAccum b 1 0 - r 0 - b.source 0) = _
    unfold snesAccum
    rw [hc, hp, hv, hsrc]
    simp [FluxWitness.s]
    ring
  rw [e c (fun k => (atRest k).1) rfl (fun _ => rfl) rfl rfl rfl rfl,
    e (swapSides c) (fun k => (atRest k).2) rfl (fun _ => rfl) rfl rfl rfl rfl]
  constructor <;>
    simp [vertexLoop_apply, fluxTerm, active, faceOf, denAvg, ukvrTP, side, swapSides, c, FluxWitness.s] <;>
    norm_num <;> ring

end SwapWitness

/-- C190 is violated in the salinity mode: at uniform pressure the water that gravity moves between two cells
depends on which of them is named first. -/
theorem C190_salt_violated : ∃ (g l : Sal) (w : View), OwnsAll g.base ∧ SeesSalt g l w ∧
    Addressed g.base ∧ Addressed l.base ∧ l.base.isLocal 0 = true ∧ w.cell 0 = 0 ∧
    ∀ prev : Nat → ℝ, salFunction l 1 prev 0 ≠ salFunction g 1 prev 0 := by
  refine ⟨SwapWitness.salt SwapWitness.c, SwapWitness.salt (swapSides SwapWitness.c), swapView,
    SwapWitness.owns, SwapWitness.sees, SwapWitness.addressed, SwapWitness.addressed_swapped, rfl, rfl, ?_⟩
  intro prev
  rw [(SwapWitness.outflow prev).1, (SwapWitness.outflow prev).2]
  intro h
  linarith

namespace HiddenWitness

theorem sidesOk (v i : Nat) (h : IsSubface FluxWitness.c v i) :
    SideOk FluxWitness.c (faceOf FluxWitness.c v i).up ∧ SideOk FluxWitness.c (faceOf FluxWitness.c v i).dn := by
  have hi : i = 0 ∨ i = 1 := by
    have := h.2; simp only [FluxWitness.c, FluxWitness.v] at this; omega
  rcases hi with rfl | rfl <;>
    simp [SideOk, faceOf, FluxWitness.c, FluxWitness.v, FluxWitness.face]

/-- The mesh of `HeatWitness` on a process whose cell 0 is a ghost. -/
def l : Th :=
  { HeatWitness.t with base := { FluxWitness.c with isLocal := fun j => decide (j = 1) } }

theorem sees : SeesHeat HeatWitness.t l plainView where
  base := sees_plain FluxWitness.c FluxWitness.ownsAll (fun j => decide (j = 1)) sidesOk
  cells := fun _ _ => rfl
  bnds := fun _ _ => ⟨rfl, rfl⟩
  eps := rfl
  trans := fun v i _ J => by
    have hc : ∀ j, plainView.column HeatWitness.t.base l.base j = j := by
      intro j
      unfold View.column plainView
      split
      · rfl
      · rename_i hj
        change ¬ j < 2 at hj
        change 2 + (j - 2) = j
        omega
    simp only [hc]
    change _ = (1:ℝ)*_
    rw [one_mul]
    rfl

theorem addressed : Addressed l.base :=
  ⟨ParallelWitness.addressed_all.slots, ParallelWitness.addressed_all.own, ParallelWitness.addressed_all.cols⟩

end HiddenWitness

/-- C190 is violated in the mode of water and heat: the energy source of a cell behind a ghost cell is in the
equations of a single process only. -/
theorem C190_heat_violated : ∃ (g l : Th) (w : View), OwnsAll g.base ∧ SeesHeat g l w ∧
    Addressed g.base ∧ Addressed l.base ∧ l.base.isLocal 1 = true ∧ w.cell 1 = 1 ∧
    thFunction l (fun _ => 0) (fun _ => 0) 3 ≠ thFunction g (fun _ => 0) (fun _ => 0) 3 := by
  refine ⟨HeatWitness.t, HiddenWitness.l, plainView, FluxWitness.ownsAll, HiddenWitness.sees,
    ParallelWitness.addressed_all, HiddenWitness.addressed, rfl, rfl, ?_⟩
  have h1 := (C96_lost HiddenWitness.l (fun _ => 0) (fun _ => 0) 1 0 (by omega) rfl).2
  have h2 := (C96_storage_partial HeatWitness.t (fun _ => 0) (fun _ => 0) 1 (by decide) (fun k _ => rfl)).2
  have h3 := (C190_heat_outflow HeatWitness.t HiddenWitness.l plainView FluxWitness.ownsAll HiddenWitness.sees
    ParallelWitness.addressed_all HiddenWitness.addressed 1 (by decide) rfl).2
  rw [vertexLoop2_odd, vertexLoop2_odd] at h3
  change thFunction HiddenWitness.l (fun _ => 0) (fun _ => 0) (2*1 + 1)
    ≠ thFunction HeatWitness.t (fun _ => 0) (fun _ => 0) (2*1 + 1)
  rw [h1, h2, h3]
  intro h
  have hs : (HeatWitness.t.heat 1).source = 7 := rfl
  have hv : HeatWitness.t.base.vol 1 = 2 := rfl
  rw [hs, hv] at h
  change _ = _ + vertexLoop HeatWitness.t.base (thFluxe HeatWitness.t) (fun _ => 0) 1 at h
  have h' : (0:ℝ) = (thDenergydP HeatWitness.t 1*0 + thDenergydT HeatWitness.t 1*0 - 7)*2 :=
    add_right_cancel ((zero_add _).trans h)
  norm_num at h'

/-- The hypotheses of `C190_salt_partial` and `C190_heat_partial` are met: the mesh of `FluxWitness` with the
sides exchanged, and the process of `HiddenWitness` if it owned cell 0 instead. -/
example : PressureDriven FluxWitness.c (swapSides FluxWitness.c) swapView ∧
    SeesSalt (SwapWitness.salt FluxWitness.c) (SwapWitness.salt (swapSides FluxWitness.c)) swapView :=
  ⟨fun _ _ _ _ => Or.inr rfl,
   { base := sees_swapped FluxWitness.c FluxWitness.ownsAll HiddenWitness.sidesOk
     cells := fun _ _ => ⟨rfl, rfl⟩
     bnds := fun _ _ => rfl
     corner := fun _ _ _ => rfl
     trans := fun _ _ _ hc => by simp [SwapWitness.salt] at hc }⟩

example : GhostsLast { FluxWitness.c with isLocal := fun j => decide (j = 0) } 0 := by
  intro k hk
  have : k = 0 := by omega
  subst this
  rfl

end

end TDy.Mpfao.Props
