import Verif.Proofs.MpfaoCoupled
import Verif.Props.MpfaoFlux
import Mathlib.Analysis.Calculus.Deriv.Mul
import Mathlib.Analysis.Calculus.Deriv.Add

/-!
# C53, C54, C96, C97: residuals of the coupled modes

Entry `2*j` of a residual is the water balance of cell `j`, entry `2*j+1` its salt or energy
balance.
-/

namespace TDy.Mpfao.Props

open TDy.Mpfao TDy.Mpfao.Spec TDy.Mpfao.Proofs Finset
open TDy.Fvtpf (Side Bc)

noncomputable section

/-- The cells of this rank lose what passes through their subfaces. -/
theorem vertexLoop_cell (c : Ctx) (own : OwnsAll c) (q : Nat → Nat → ℝ) (j : Nat) :
    vertexLoop c q (fun _ => 0) j = cellOutflow c q j := by
  rw [vertexLoop_apply, zero_add]
  unfold cellOutflow overSubfaces
  refine sum_congr rfl fun v _ => sum_congr rfl fun i _ => ?_
  have ha : active c v i := ⟨own.vert v, own.face _⟩
  rw [if_pos ha]
  unfold fluxTerm
  have e1 : (0 ≤ (faceOf c v i).up ∧ c.isLocal (faceOf c v i).up.toNat = true ∧
      j = (faceOf c v i).up.toNat) ↔ (faceOf c v i).up = j := by
    simp only [own.cell, true_and]; omega
  have e2 : (0 ≤ (faceOf c v i).dn ∧ c.isLocal (faceOf c v i).dn.toNat = true ∧
      j = (faceOf c v i).dn.toNat) ↔ (faceOf c v i).dn = j := by
    simp only [own.cell, true_and]; omega
  rw [if_congr e1 rfl rfl, if_congr e2 rfl rfl]
  beta_reduce
  rw [sub_eq_add_neg]
  congr 1
  split <;> simp

/-! ## C53 : salt -/

theorem saltAccum_eq (s : Sal) (dtime : ℝ) (j : Nat) :
    saltAccum s dtime j = saltMass s j/dtime := by
  unfold saltAccum saltMass waterMass; ring

theorem snesAccum_eq (c : Ctx) (dtime : ℝ) (j : Nat) :
    snesAccum c dtime j = waterMass c j/dtime := by
  unfold snesAccum waterMass; ring

/-- The two residuals of cell `j`: change of storage minus source plus what leaves through the
subfaces of the cell. -/
theorem C53_cell (s : Sal) (own : OwnsAll s.base) (dtime : ℝ) (prev : Nat → ℝ) (j : Nat)
    (hj : j < s.base.numCells) :
    salFunction s dtime prev (2*j) = waterMass s.base j/dtime - prev (2*j) - s.base.source j +
      cellOutflow s.base (salFluxm s) j ∧
    salFunction s dtime prev (2*j + 1) = saltMass s j/dtime - prev (2*j + 1) - s.saltSource j +
      cellOutflow s.base (salFluxt s) j := by
  unfold salFunction
  have h := salCellLoop_apply s dtime prev
    (vertexLoop2 s.base (salFluxm s) (salFluxt s) (fun _ => 0)) j
  rw [h.1, h.2, vertexLoop2_even, vertexLoop2_odd, if_pos ⟨hj, own.cell j⟩,
    if_pos ⟨hj, own.cell j⟩, vertexLoop_cell _ own, vertexLoop_cell _ own, snesAccum_eq,
    saltAccum_eq]
  constructor <;> ring

/-- The residuals of all cells sum up to the change of storage minus the sources plus what leaves
through the boundary, for water and for salt: nothing is lost inside the mesh. -/
theorem C53_conservation (s : Sal) (ok : FacesOk s.base) (own : OwnsAll s.base) (dtime : ℝ)
    (prev : Nat → ℝ) :
    ∑ j ∈ range s.base.numCells, salFunction s dtime prev (2*j) =
      (∑ j ∈ range s.base.numCells, (waterMass s.base j/dtime - prev (2*j) - s.base.source j)) +
      (overSubfaces s.base fun v i => outflow (faceOf s.base v i) (salFluxm s v i)) ∧
    ∑ j ∈ range s.base.numCells, salFunction s dtime prev (2*j + 1) =
      (∑ j ∈ range s.base.numCells, (saltMass s j/dtime - prev (2*j + 1) - s.saltSource j)) +
      (overSubfaces s.base fun v i => outflow (faceOf s.base v i) (salFluxt s v i)) := by
  rw [← vertexLoop_total_all _ ok own, ← vertexLoop_total_all _ ok own, ← sum_add_distrib,
    ← sum_add_distrib]
  constructor <;> refine sum_congr rfl fun j hj => ?_
  · rw [(C53_cell s own dtime prev j (mem_range.1 hj)).1, vertexLoop_cell _ own]
  · rw [(C53_cell s own dtime prev j (mem_range.1 hj)).2, vertexLoop_cell _ own]

/-- A step from `s0` to `s` that solves the equations changes the amount of salt by the sources
minus what leaves through the boundary. -/
theorem C53_balance (s0 s : Sal) (ok : FacesOk s.base) (own : OwnsAll s.base) (dtime : ℝ)
    (hdt : dtime ≠ 0) (hn : s0.base.numCells = s.base.numCells)
    (hl : s0.base.isLocal = s.base.isLocal) (old : Nat → ℝ)
    (hr : ∀ j < s.base.numCells, salFunction s dtime (salPreSolve s0 dtime old) (2*j + 1) = 0) :
    ∑ j ∈ range s.base.numCells, saltMass s j - ∑ j ∈ range s.base.numCells, saltMass s0 j =
      dtime*(∑ j ∈ range s.base.numCells, s.saltSource j -
        overSubfaces s.base fun v i => outflow (faceOf s.base v i) (salFluxt s v i)) := by
  have h := (C53_conservation s ok own dtime (salPreSolve s0 dtime old)).2
  rw [sum_eq_zero (fun j hj => hr j (mem_range.1 hj))] at h
  have e : ∑ j ∈ range s.base.numCells,
      (saltMass s j/dtime - salPreSolve s0 dtime old (2*j + 1) - s.saltSource j) =
      (∑ j ∈ range s.base.numCells, saltMass s j)/dtime -
      (∑ j ∈ range s.base.numCells, saltMass s0 j)/dtime -
      ∑ j ∈ range s.base.numCells, s.saltSource j := by
    rw [sum_div, sum_div, ← sum_sub_distrib, ← sum_sub_distrib]
    refine sum_congr rfl fun j hj => ?_
    rw [(salPreSolve_apply s0 dtime old j (by rw [hn]; exact mem_range.1 hj)
      (by rw [hl]; exact own.cell j)).2, saltAccum_eq]
  rw [e] at h
  field_simp at h
  linarith

/-- No dispersion without salt. -/
theorem C53_fresh_dispersion (s : Sal) (hf : Fresh s) (row : Nat) : ttimesPsi s row = 0 := by
  unfold ttimesPsi
  refine sum_eq_zero fun j _ => ?_
  have : psiVec s j = 0 := by unfold psiVec; split <;> simp [hf.1, hf.2]
  rw [this, mul_zero]

/-- What the salt flux of fresh water is: the part of the water flux that the pressures drive, not
zero.  (The code does not multiply the advective part by a concentration.) -/
theorem C53_fresh_flux (s : Sal) (hf : Fresh s) (v i : Nat) :
    salFluxt s v i = salFluxm s v i +
      denAvg s.base (faceOf s.base v i) ^ (2:ℕ)*
        ukvrTP s.base (faceOf s.base v i) (ttimesP s.base (slot (s.base.vert v) i))*
        s.base.grav (slot (s.base.vert v) i) := by
  unfold salFluxt salFluxm faceOf
  rw [C53_fresh_dispersion s hf]
  ring

/-- C53, as far as it holds: without salt and without flow driven by pressure there is no salt
flux.  Missing: fresh water that flows must not carry salt either; the code gets this wrong
(`C53_fresh_violated`). -/
theorem C53_fresh_partial (s : Sal) (hf : Fresh s) (v i : Nat)
    (h0 : ttimesP s.base (slot (s.base.vert v) i) = 0) : salFluxt s v i = 0 := by
  unfold salFluxt
  rw [C53_fresh_dispersion s hf, h0]
  simp

/-- The direction of dispersion is that of Darcy's law: without a pressure difference salt moves against
the transmissibilities applied to the concentrations, with the mean density. -/
theorem C53_dispersion_direction (s : Sal) (v i : Nat)
    (h0 : ttimesP s.base (slot (s.base.vert v) i) = 0)
    (hd : 0 < denAvg s.base (faceOf s.base v i)) :
    (0 < ttimesPsi s (slot (s.base.vert v) i) → salFluxt s v i < 0)
      ∧ (ttimesPsi s (slot (s.base.vert v) i) < 0 → 0 < salFluxt s v i)
      ∧ |salFluxt s v i| = denAvg s.base (faceOf s.base v i)*|ttimesPsi s (slot (s.base.vert v) i)| := by
  have e : salFluxt s v i
      = -(denAvg s.base (faceOf s.base v i)*ttimesPsi s (slot (s.base.vert v) i)) := by
    unfold salFluxt faceOf
    rw [h0]
    simp
  rw [e, abs_neg, abs_mul, abs_of_pos hd]
  exact ⟨fun h => neg_neg_of_pos (mul_pos hd h), fun h => neg_pos.2 (mul_neg_of_pos_of_neg hd h), rfl⟩

/-- The salt flux of a subface does not depend on the concentrations at all, unless its vertex has
only one cell: `Psi_Trans_mat` is filled at corner vertices only. -/
theorem C53_no_dispersion_inside (s : Sal) (hs : OwnSlots s.base) (v i : Nat)
    (hsub : IsSubface s.base v i) (hc : s.corner v = false) :
    ttimesPsi s (slot (s.base.vert v) i) = 0 := by
  unfold ttimesPsi
  refine sum_eq_zero fun b _ => ?_
  have : psiMat s (slot (s.base.vert v) i) b = 0 := by
    rw [psiMat_apply]
    refine sum_eq_zero fun v' hv' => sum_eq_zero fun i' hi' => ?_
    split
    · rename_i hcond
      refine sum_eq_zero fun j _ => if_neg ?_
      rintro ⟨e, _⟩
      obtain ⟨rfl, _⟩ := hs v i v' i' hsub ⟨mem_range.1 hv', mem_range.1 hi'⟩ e
      rw [hc] at hcond
      exact absurd hcond.2.1 (by decide)
    · rfl
  rw [this, zero_mul]

namespace SaltWitness

/-- Fresh water on the mesh of `FluxWitness`. -/
def s : Sal :=
  { base := FluxWitness.c, corner := fun _ => false, psiM := fun _ _ _ => 0, psi := fun _ => 0
    psiBnd := fun _ => 0, saltSource := fun _ => 0 }

theorem fluxt : salFluxt s 0 0 = 2 ∧ salFluxt s 0 1 = 1 := by
  have p : ∀ row, ttimesPsi s row = 0 := C53_fresh_dispersion s ⟨fun _ => rfl, fun _ => rfl⟩
  have e0 : ttimesP s.base (slot (s.base.vert 0) 0) = -2 := FluxWitness.ttimesP_0
  have e1 : ttimesP s.base (slot (s.base.vert 0) 1) = -1 := FluxWitness.ttimesP_4
  unfold salFluxt
  rw [p, p, e0, e1]
  constructor <;>
    simp [denAvg, ukvrTP, side, FluxWitness.face, s, FluxWitness.c, FluxWitness.v, FluxWitness.s] <;>
    norm_num

end SaltWitness

/-- C53 is violated: fresh water in a flow has a salt flux, and the salt residual of a cell without
any salt is not zero. -/
theorem C53_fresh_violated : ∃ s : Sal, Fresh s ∧ FacesOk s.base ∧ OwnsAll s.base ∧
    (∀ j, s.saltSource j = 0) ∧ salFluxt s 0 0 = 2 ∧
    salFunction s 1 (fun _ => 0) 1 = 2 := by
  refine ⟨SaltWitness.s, ⟨fun _ => rfl, fun _ => rfl⟩, FluxWitness.facesOk, FluxWitness.ownsAll,
    fun _ => rfl, SaltWitness.fluxt.1, ?_⟩
  have h := (C53_cell SaltWitness.s FluxWitness.ownsAll 1 (fun _ => 0) 0 (by
    simp [SaltWitness.s, FluxWitness.c])).2
  have e : cellOutflow SaltWitness.s.base (salFluxt SaltWitness.s) 0 = 2 := by
    have : cellOutflow SaltWitness.s.base (salFluxt SaltWitness.s) 0 =
      ((if (0:ℤ) = (0:Nat) then salFluxt SaltWitness.s 0 0 else 0) -
        (if (1:ℤ) = (0:Nat) then salFluxt SaltWitness.s 0 0 else 0)) +
      ((if (1:ℤ) = (0:Nat) then salFluxt SaltWitness.s 0 1 else 0) -
        (if (-1:ℤ) = (0:Nat) then salFluxt SaltWitness.s 0 1 else 0)) := by
      unfold cellOutflow overSubfaces
      simp only [SaltWitness.s, FluxWitness.c, FluxWitness.v, sum_range_succ, sum_range_zero,
        zero_add]
      rfl
    rw [this, SaltWitness.fluxt.1]
    simp
  rw [e] at h
  rw [h]
  simp [saltMass, SaltWitness.s]

/-- Non-vacuity of `C53_balance`: a step that solves the salt equations with salt leaving the mesh.
Sources balance the fluxes. -/
example : ∃ s : Sal, FacesOk s.base ∧ OwnsAll s.base ∧
    (∀ j < s.base.numCells, salFunction s 1 (salPreSolve s 1 (fun _ => 0)) (2*j + 1) = 0) ∧
    salFluxt s 0 1 = 1 := by
  let s : Sal := { SaltWitness.s with saltSource := fun j => if j = 0 then 2 else -1 }
  have ok : FacesOk s.base := FluxWitness.facesOk
  have own : OwnsAll s.base := FluxWitness.ownsAll
  have f0 : salFluxt s 0 0 = 2 := SaltWitness.fluxt.1
  have f1 : salFluxt s 0 1 = 1 := SaltWitness.fluxt.2
  refine ⟨s, ok, own, ?_, f1⟩
  intro j hj
  rw [(C53_cell s own _ _ j hj).2, (salPreSolve_apply s 1 _ j hj (own.cell j)).2, saltAccum_eq]
  have e : ∀ j, cellOutflow s.base (salFluxt s) j =
      ((if (0:ℤ) = j then (2:ℝ) else 0) - (if (1:ℤ) = j then 2 else 0)) +
      ((if (1:ℤ) = j then (1:ℝ) else 0) - (if (-1:ℤ) = j then 1 else 0)) := by
    intro j
    rw [← f0, ← f1]
    unfold cellOutflow overSubfaces
    simp only [s, SaltWitness.s, FluxWitness.c, FluxWitness.v, sum_range_succ, sum_range_zero,
      zero_add]
    rfl
  rw [e]
  have : j = 0 ∨ j = 1 := by
    have : j < 2 := hj
    omega
  rcases this with rfl | rfl <;> simp [s] <;> norm_num

/-- Non-vacuity of `C53_no_dispersion_inside`. -/
example : OwnSlots SaltWitness.s.base ∧ IsSubface SaltWitness.s.base 0 1 := by
  refine ⟨?_, by simp [IsSubface, SaltWitness.s, FluxWitness.c, FluxWitness.v]⟩
  intro v i v' i' h h' e
  have h1 : v < 1 := h.1
  have h2 : v' < 1 := h'.1
  simp [slot, wslot, SaltWitness.s, FluxWitness.c, FluxWitness.v] at e
  exact ⟨by omega, e⟩

/-! ## C54, C96 : water and heat -/

/-- The two residuals of cell `j` on a process that owns the mesh: change of storage minus source,
plus what leaves through the subfaces of the cell. -/
theorem C54_cell (t : Th) (own : OwnsAll t.base) (dpdt dTdt : Nat → ℝ) (j : Nat)
    (hj : j < t.base.numCells) :
    thFunction t dpdt dTdt (2*j) =
      (thDmassdP t j*dpdt j + thDmassdT t j*dTdt j - t.base.source j)*t.base.vol j +
      cellOutflow t.base (thFluxm t) j ∧
    thFunction t dpdt dTdt (2*j + 1) =
      (thDenergydP t j*dpdt j + thDenergydT t j*dTdt j - (t.heat j).source)*t.base.vol j +
      cellOutflow t.base (thFluxe t) j := by
  classical
  unfold thFunction
  have h := thCellLoop_apply t dpdt dTdt
    (vertexLoop2 t.base (thFluxm t) (thFluxe t) (fun _ => 0)) j
  have hr : j < t.base.numCells ∧ Reached t j := ⟨hj, fun k _ => own.cell k⟩
  rw [h.1, h.2, vertexLoop2_even, vertexLoop2_odd, if_pos hr, if_pos hr, vertexLoop_cell _ own,
    vertexLoop_cell _ own]
  unfold thStorageM thStorageE
  constructor <;> ring

/-- Water and energy: the residuals of all cells sum up to the change of storage minus the sources
plus what leaves through the boundary. -/
theorem C54_conservation (t : Th) (ok : FacesOk t.base) (own : OwnsAll t.base)
    (dpdt dTdt : Nat → ℝ) :
    ∑ j ∈ range t.base.numCells, thFunction t dpdt dTdt (2*j) =
      (∑ j ∈ range t.base.numCells,
        (thDmassdP t j*dpdt j + thDmassdT t j*dTdt j - t.base.source j)*t.base.vol j) +
      (overSubfaces t.base fun v i => outflow (faceOf t.base v i) (thFluxm t v i)) ∧
    ∑ j ∈ range t.base.numCells, thFunction t dpdt dTdt (2*j + 1) =
      (∑ j ∈ range t.base.numCells,
        (thDenergydP t j*dpdt j + thDenergydT t j*dTdt j - (t.heat j).source)*t.base.vol j) +
      (overSubfaces t.base fun v i => outflow (faceOf t.base v i) (thFluxe t v i)) := by
  rw [← vertexLoop_total_all _ ok own, ← vertexLoop_total_all _ ok own, ← sum_add_distrib,
    ← sum_add_distrib]
  constructor <;> refine sum_congr rfl fun j hj => ?_
  · rw [(C54_cell t own dpdt dTdt j (mem_range.1 hj)).1, vertexLoop_cell _ own]
  · rw [(C54_cell t own dpdt dTdt j (mem_range.1 hj)).2, vertexLoop_cell _ own]

/-- On any rank: what a subface between two owned cells adds to their residuals cancels, for water
and energy, whatever the fluxes are. -/
theorem C54_subface_cancels (c : Ctx) (f : MFace) (q0 q1 : ℝ) (r : Nat → ℝ)
    (hu : 0 ≤ f.up) (hd : 0 ≤ f.dn) (lu : c.isLocal f.up.toNat = true)
    (ld : c.isLocal f.dn.toNat = true) (hne : f.up ≠ f.dn) :
    (scatterFlux2 c f q0 q1 r (2*f.up.toNat) - r (2*f.up.toNat)) +
      (scatterFlux2 c f q0 q1 r (2*f.dn.toNat) - r (2*f.dn.toNat)) = 0 ∧
    (scatterFlux2 c f q0 q1 r (2*f.up.toNat + 1) - r (2*f.up.toNat + 1)) +
      (scatterFlux2 c f q0 q1 r (2*f.dn.toNat + 1) - r (2*f.dn.toNat + 1)) = 0 ∧
    scatterFlux2 c f q0 q1 r (2*f.up.toNat) - r (2*f.up.toNat) = q0 ∧
    scatterFlux2 c f q0 q1 r (2*f.up.toNat + 1) - r (2*f.up.toNat + 1) = q1 := by
  have n1 : ¬ f.up.toNat = f.dn.toNat := by omega
  have n2 : ¬ f.dn.toNat = f.up.toNat := by omega
  simp only [scatterFlux2_apply]
  rw [if_pos (by omega), if_pos (by omega), if_neg (by omega), if_neg (by omega),
    show 2*f.up.toNat/2 = f.up.toNat by omega, show 2*f.dn.toNat/2 = f.dn.toNat by omega,
    show (2*f.up.toNat + 1)/2 = f.up.toNat by omega,
    show (2*f.dn.toNat + 1)/2 = f.dn.toNat by omega]
  simp only [fluxTerm, hu, hd, lu, ld, n1, n2, true_and, if_true, if_false]
  refine ⟨by ring, by ring, by ring, by ring⟩

/-- C96, as far as it holds: on any rank, a cell before the first ghost cell has its storage and
sources in the residual.  Missing: the same for the owned cells behind a ghost cell, which the code
forgets (`C96_violated`). -/
theorem C96_storage_partial (t : Th) (dpdt dTdt : Nat → ℝ) (j : Nat) (hj : j < t.base.numCells)
    (hl : ∀ k ≤ j, t.base.isLocal k = true) :
    thFunction t dpdt dTdt (2*j) =
      (thDmassdP t j*dpdt j + thDmassdT t j*dTdt j - t.base.source j)*t.base.vol j +
      vertexLoop t.base (thFluxm t) (fun _ => 0) j ∧
    thFunction t dpdt dTdt (2*j + 1) =
      (thDenergydP t j*dpdt j + thDenergydT t j*dTdt j - (t.heat j).source)*t.base.vol j +
      vertexLoop t.base (thFluxe t) (fun _ => 0) j := by
  classical
  unfold thFunction
  have h := thCellLoop_apply t dpdt dTdt
    (vertexLoop2 t.base (thFluxm t) (thFluxe t) (fun _ => 0)) j
  have hr : j < t.base.numCells ∧ Reached t j := ⟨hj, hl⟩
  rw [h.1, h.2, vertexLoop2_even, vertexLoop2_odd, if_pos hr, if_pos hr]
  unfold thStorageM thStorageE
  constructor <;> ring

/-- Behind a ghost cell the residual has neither storage nor sources. -/
theorem C96_lost (t : Th) (dpdt dTdt : Nat → ℝ) (j k : Nat) (hk : k ≤ j)
    (hl : t.base.isLocal k = false) :
    thFunction t dpdt dTdt (2*j) = vertexLoop t.base (thFluxm t) (fun _ => 0) j ∧
    thFunction t dpdt dTdt (2*j + 1) = vertexLoop t.base (thFluxe t) (fun _ => 0) j := by
  classical
  unfold thFunction
  have h := thCellLoop_apply t dpdt dTdt
    (vertexLoop2 t.base (thFluxm t) (thFluxe t) (fun _ => 0)) j
  have hr : ¬ (j < t.base.numCells ∧ Reached t j) := by
    rintro ⟨_, hr⟩
    rw [hr k hk] at hl
    exact absurd hl (by decide)
  rw [h.1, h.2, vertexLoop2_even, vertexLoop2_odd, if_neg hr, if_neg hr]
  simp

namespace HeatWitness

def heat : Heat :=
  { T := 20, h := 3, dhdP := 0, dhdT := 1, u := 2, dudP := 0, dudT := 0, dSdT := 0, dvisdT := 0
    drhodT := 0, rock := 5, source := 7, gz := 0 }

/-- The mesh of `FluxWitness`, where cell 1 is warmer by 10 than the boundary. -/
def t : Th :=
  { base := FluxWitness.c, eps := 1/1000, tempT := fun _ => FluxWitness.M
    tempM := fun _ => FluxWitness.M, heat := fun _ => heat, tBnd := fun _ => 10
    hBnd := fun _ => 1, corner := fun _ => false }

/-- Cell 0 is a ghost. -/
def ghost : Th :=
  { t with base := { FluxWitness.c with isLocal := fun j => decide (j = 1)
                                        source := fun _ => 3 } }

theorem tp : thTP t 0 0 = -2 ∧ thTP t 0 1 = -1 := by
  have e0 : ttimesP t.base (slot (t.base.vert 0) 0) = -2 := FluxWitness.ttimesP_0
  have e1 : ttimesP t.base (slot (t.base.vert 0) 1) = -1 := FluxWitness.ttimesP_4
  unfold thTP
  rw [e0, e1]
  constructor <;> simp [chop, t] <;> norm_num

theorem tempTP : thTempTP t 0 0 = 0 ∧ thTempTP t 0 1 = -10 := by
  have e0 : ttimesTemp t (slot (t.base.vert 0) 0) = 0 := by
    simp [ttimesTemp, transMat_apply, wslot, heatCtx, t, FluxWitness.c, FluxWitness.v, slot,
      FluxWitness.M, tempVec, heat, sum_range_succ]
  have e1 : ttimesTemp t (slot (t.base.vert 0) 1) = -10 := by
    simp [ttimesTemp, transMat_apply, wslot, heatCtx, t, FluxWitness.c, FluxWitness.v, slot,
      FluxWitness.M, tempVec, heat, sum_range_succ]
    norm_num
  unfold thTempTP
  rw [e0, e1]
  constructor <;> simp [chop, t] <;> norm_num

theorem flux : thFluxm t 0 0 = 2 ∧ thFluxe t 0 0 = 6 ∧ thFluxm t 0 1 = 1 ∧ thFluxe t 0 1 = 13 := by
  unfold thFluxm thFluxe
  rw [tp.1, tp.2, tempTP.1, tempTP.2]
  refine ⟨?_, ?_, ?_, ?_⟩ <;>
    simp [denAvg, ukvrTP, uhTP, hSide, side, t, FluxWitness.c, FluxWitness.v, FluxWitness.face,
      FluxWitness.s, heat] <;> norm_num

end HeatWitness

/-- Non-vacuity: water and heat flow between the cells and out of the mesh. -/
example : FacesOk HeatWitness.t.base ∧ OwnsAll HeatWitness.t.base ∧
    thFluxe HeatWitness.t 0 0 = 6 ∧ thFluxe HeatWitness.t 0 1 = 13 :=
  ⟨FluxWitness.facesOk, FluxWitness.ownsAll, HeatWitness.flux.2.1, HeatWitness.flux.2.2.2⟩

/-- C96 is violated: cell 1 is owned, but as cell 0 is a ghost its sources and its storage do not
appear in the residual, at any rate of change. -/
theorem C96_violated : ∃ t : Th, t.base.isLocal 1 = true ∧ 1 < t.base.numCells ∧
    t.base.source 1 ≠ 0 ∧ 0 < t.base.vol 1 ∧ thDenergydT t 1 ≠ 0 ∧
    ∀ dpdt dTdt dpdt' dTdt', thFunction t dpdt dTdt 2 = thFunction t dpdt' dTdt' 2 ∧
      thFunction t dpdt dTdt 3 = thFunction t dpdt' dTdt' 3 ∧
      thFunction t dpdt dTdt 2 = vertexLoop t.base (thFluxm t) (fun _ => 0) 1 := by
  refine ⟨{ HeatWitness.ghost with
      base := { HeatWitness.ghost.base with por := fun _ => 1/2 } }, rfl, ?_, ?_, ?_, ?_, ?_⟩
  · simp [HeatWitness.ghost, FluxWitness.c]
  · simp [HeatWitness.ghost]
  · simp [HeatWitness.ghost, FluxWitness.c]
  · simp [thDenergydT, HeatWitness.ghost, HeatWitness.t, HeatWitness.heat, FluxWitness.c,
      FluxWitness.s]
    norm_num
  · intro a b a' b'
    have h1 := C96_lost { HeatWitness.ghost with
      base := { HeatWitness.ghost.base with por := fun _ => 1/2 } } a b 1 0 (by omega) rfl
    have h2 := C96_lost { HeatWitness.ghost with
      base := { HeatWitness.ghost.base with por := fun _ => 1/2 } } a' b' 1 0 (by omega) rfl
    exact ⟨h1.1.trans h2.1.symm, h1.2.trans h2.2.symm, h1.1⟩

/-! ## C97 : the accumulation terms are the rates of change of water and energy -/

/-- A cell whose state follows a path: the fields are the values at time `x0`, the derivatives are
partial derivatives with respect to pressure and temperature (chain rule). -/
structure Path (t : Th) (i : Nat) (rho S u T : ℝ → ℝ) (dpdt dTdt x0 : ℝ) : Prop where
  rho0 : rho x0 = (t.base.cells i).rho
  S0 : S x0 = (t.base.cells i).S
  u0 : u x0 = (t.heat i).u
  T0 : T x0 = (t.heat i).T
  rho : HasDerivAt rho ((t.base.cells i).drho*dpdt + (t.heat i).drhodT*dTdt) x0
  S : HasDerivAt S ((t.base.cells i).dSdP*dpdt + (t.heat i).dSdT*dTdt) x0
  T : HasDerivAt T dTdt x0

/-- The water accumulation is the rate of change of the water of the cell. -/
theorem C97_water (t : Th) (i : Nat) (rho S u T : ℝ → ℝ) (dpdt dTdt x0 : ℝ)
    (h : Path t i rho S u T dpdt dTdt x0) :
    HasDerivAt (fun x => waterPerVolume (t.base.por i) (rho x) (S x))
      (thDmassdP t i*dpdt + thDmassdT t i*dTdt) x0 := by
  unfold waterPerVolume
  refine ((h.rho.mul_const (t.base.por i)).mul h.S).congr_deriv ?_
  rw [h.rho0, h.S0]
  unfold thDmassdP thDmassdT
  norm_num
  ring

/-- The energy accumulation is the rate of change of the energy of the cell, provided that the
derivatives of the internal energy are those stored.  Missing: the code stores none
(`C97_energy_deficit`). -/
theorem C97_energy_partial (t : Th) (i : Nat) (rho S u T : ℝ → ℝ) (dpdt dTdt x0 : ℝ)
    (h : Path t i rho S u T dpdt dTdt x0)
    (hu : HasDerivAt u ((t.heat i).dudP*dpdt + (t.heat i).dudT*dTdt) x0) :
    HasDerivAt (fun x => energyPerVolume (t.base.por i) (rho x) (S x) (u x) (t.heat i).rock (T x))
      (thDenergydP t i*dpdt + thDenergydT t i*dTdt) x0 := by
  unfold energyPerVolume
  refine ((((h.rho.mul_const (t.base.por i)).mul h.S).mul hu).add
    (h.T.const_mul ((1 - t.base.por i)*(t.heat i).rock))).congr_deriv ?_
  rw [h.rho0, h.S0, h.u0]
  unfold thDenergydP thDenergydT
  norm_num
  rw [h.rho0, h.S0]
  ring

/-- With the arrays as the code leaves them (`du_dP = du_dT = 0`), the accumulation misses
`rho*phi*S*du/dt`. -/
theorem C97_energy_deficit (t : Th) (i : Nat) (rho S u T : ℝ → ℝ) (dpdt dTdt dudt x0 : ℝ)
    (h : Path t i rho S u T dpdt dTdt x0) (z1 : (t.heat i).dudP = 0) (z2 : (t.heat i).dudT = 0)
    (hu : HasDerivAt u dudt x0) :
    HasDerivAt (fun x => energyPerVolume (t.base.por i) (rho x) (S x) (u x) (t.heat i).rock (T x))
      (thDenergydP t i*dpdt + thDenergydT t i*dTdt +
        (t.base.cells i).rho*t.base.por i*(t.base.cells i).S*dudt) x0 := by
  unfold energyPerVolume
  refine ((((h.rho.mul_const (t.base.por i)).mul h.S).mul hu).add
    (h.T.const_mul ((1 - t.base.por i)*(t.heat i).rock))).congr_deriv ?_
  rw [h.rho0, h.S0, h.u0]
  unfold thDenergydP thDenergydT
  dsimp only
  rw [z1, z2]
  norm_num
  rw [h.rho0, h.S0]
  ring

/-- C97 is violated: water of enthalpy `h = T` that warms up; the accumulation term has none of the
heat the water takes up. -/
theorem C97_violated : ∃ (t : Th) (rho S u T : ℝ → ℝ),
    Path t 0 rho S u T 0 1 0 ∧ (t.heat 0).dudP = 0 ∧ (t.heat 0).dudT = 0 ∧
    (∀ x, u x = T x - 1) ∧ HasDerivAt u 1 0 ∧
    ¬ HasDerivAt (fun x => energyPerVolume (t.base.por 0) (rho x) (S x) (u x) (t.heat 0).rock (T x))
      (thDenergydP t 0*0 + thDenergydT t 0*1) 0 := by
  have P : Path { HeatWitness.t with heat := fun _ => { HeatWitness.heat with u := 19 } } 0
      (fun _ => 1) (fun _ => 1) (fun x => 20 + x - 1) (fun x => 20 + x) 0 1 0 := by
    refine ⟨rfl, rfl, by norm_num, by norm_num [HeatWitness.heat], ?_, ?_, ?_⟩
    · refine (hasDerivAt_const (0:ℝ) (1:ℝ)).congr_deriv ?_
      simp [HeatWitness.t, HeatWitness.heat, FluxWitness.c, FluxWitness.s]
    · refine (hasDerivAt_const (0:ℝ) (1:ℝ)).congr_deriv ?_
      simp [HeatWitness.t, HeatWitness.heat, FluxWitness.c, FluxWitness.s]
    · exact (hasDerivAt_id (0:ℝ)).const_add 20
  have hu : HasDerivAt (fun x : ℝ => 20 + x - 1) 1 0 :=
    ((hasDerivAt_id (0:ℝ)).const_add 20).sub_const 1
  refine ⟨_, _, _, _, _, P, rfl, rfl, fun x => rfl, hu, fun hd => ?_⟩
  have h := (C97_energy_deficit _ _ _ _ _ _ _ _ _ _ P rfl rfl hu).unique hd
  have : (1:ℝ)*1*1*1 = 0 := by
    have h2 : ∀ a b : ℝ, a + b = a → b = 0 := fun a b e => by linarith
    have := h2 _ _ h
    simpa [HeatWitness.t, FluxWitness.c, FluxWitness.s] using this
  norm_num at this

end

end TDy.Mpfao.Props
