import Verif.Spec.MpfaoFlux
import Verif.Proofs.MpfaoFlux
import Verif.Props.Fvtpf

/-!
# C48, C49, C56, C57: residual of the MPFA-O method

The flux of a subface is positive from the up to the down side; it is added to the residual of the
up cell and subtracted from that of the down cell.
-/

namespace TDy.Mpfao.Props

open TDy.Mpfao TDy.Mpfao.Spec TDy.Mpfao.Proofs Finset
open TDy.Fvtpf (Side Bc)
open TDy.Fvtpf.Props (sum_single)
open TDy.Fvtpf.Spec (Physical)

noncomputable section

/-! ## C48 : conservation -/

theorem fluxTerm_total (c : Ctx) (f : MFace) (q : ℝ) (hu : f.up < c.numCells)
    (hd : f.dn < c.numCells) :
    ∑ j ∈ range c.numCells, fluxTerm c f q j =
      ((if 0 ≤ f.up ∧ c.isLocal f.up.toNat = true then 1 else 0) -
       (if 0 ≤ f.dn ∧ c.isLocal f.dn.toNat = true then 1 else 0))*q := by
  unfold fluxTerm
  rw [sum_add_distrib]
  have e1 : (∑ j ∈ range c.numCells,
      if 0 ≤ f.up ∧ c.isLocal f.up.toNat = true ∧ j = f.up.toNat then q else 0) =
      (if 0 ≤ f.up ∧ c.isLocal f.up.toNat = true then 1 else 0)*q := by
    by_cases h : 0 ≤ f.up ∧ c.isLocal f.up.toNat = true
    · rw [if_pos h, one_mul]
      simp only [h.1, h.2, true_and]
      exact sum_single _ _ (by omega) _
    · rw [if_neg h, zero_mul]
      exact sum_eq_zero fun j _ => if_neg (by tauto)
  have e2 : (∑ j ∈ range c.numCells,
      if 0 ≤ f.dn ∧ c.isLocal f.dn.toNat = true ∧ j = f.dn.toNat then -q else 0) =
      -((if 0 ≤ f.dn ∧ c.isLocal f.dn.toNat = true then 1 else 0)*q) := by
    by_cases h : 0 ≤ f.dn ∧ c.isLocal f.dn.toNat = true
    · rw [if_pos h, one_mul]
      simp only [h.1, h.2, true_and]
      exact sum_single _ _ (by omega) _
    · rw [if_neg h, zero_mul, neg_zero]
      exact sum_eq_zero fun j _ => if_neg (by tauto)
  rw [e1, e2]; ring

theorem outflow_eq (f : MFace) (q : ℝ) :
    outflow f q = ((if 0 ≤ f.up then 1 else 0) - (if 0 ≤ f.dn then 1 else 0))*q := by
  unfold outflow
  split_ifs <;> ring

/-- A loop over the cells that stores `g i` in entry `i` of the local cells. -/
theorem fillLoop_apply (n : Nat) (loc : Nat → Bool) (g old : Nat → ℝ) (j : Nat) :
    forN n (fun i a => if !loc i then a else wr a i (g i)) old j =
      if j < n ∧ loc j = true then g j else old j := by
  induction n with
  | zero => simp [forN]
  | succ n ih =>
    simp only [forN]
    by_cases h : j = n
    · subst h
      cases hl : loc j
      · simp only [Bool.not_false, if_true, ih]; simp
      · simp
    · have e : (j < n + 1) ↔ j < n := by omega
      cases hl : loc n
      · simp only [Bool.not_false, if_true, ih, e]
      · simp only [Bool.not_true, Bool.false_eq_true, if_false, wr, if_neg h, ih, e]

/-- What the loop over vertices adds to the residuals of a rank. -/
theorem vertexLoop_total (c : Ctx) (ok : FacesOk c) (q : Nat → Nat → ℝ) :
    ∑ j ∈ range c.numCells, vertexLoop c q (fun _ => 0) j =
      overSubfaces c fun v i => if active c v i then
        ((if 0 ≤ (faceOf c v i).up ∧ c.isLocal (faceOf c v i).up.toNat = true then 1 else 0) -
         (if 0 ≤ (faceOf c v i).dn ∧ c.isLocal (faceOf c v i).dn.toNat = true then 1 else 0))*q v i
        else 0 := by
  simp only [vertexLoop_apply, zero_add, overSubfaces]
  rw [sum_comm]
  refine sum_congr rfl fun v hv => ?_
  rw [sum_comm]
  refine sum_congr rfl fun i hi => ?_
  have hs : IsSubface c v i := ⟨mem_range.1 hv, mem_range.1 hi⟩
  by_cases ha : active c v i
  · simp only [ha, if_true]
    exact fluxTerm_total c _ _ (ok.up v i hs) (ok.dn v i hs)
  · simp [ha]

/-- The residuals of one process that owns the whole mesh: internal subfaces cancel, and what is
left is what leaves through the boundary. -/
theorem vertexLoop_total_all (c : Ctx) (ok : FacesOk c) (own : OwnsAll c) (q : Nat → Nat → ℝ) :
    ∑ j ∈ range c.numCells, vertexLoop c q (fun _ => 0) j =
      overSubfaces c fun v i => outflow (faceOf c v i) (q v i) := by
  rw [vertexLoop_total c ok]
  unfold overSubfaces
  refine sum_congr rfl fun v _ => sum_congr rfl fun i _ => ?_
  have ha : active c v i := ⟨own.vert v, own.face _⟩
  simp only [ha, if_true, own.cell, and_true, outflow_eq]

/-- The time-stepping residual of cell `j`, on a process that owns the mesh: storage minus source,
plus what leaves through the subfaces of the cell. -/
theorem C48_cell (c : Ctx) (own : OwnsAll c) (dpdt : Nat → ℝ) (j : Nat) (hj : j < c.numCells) :
    tsFunction c dpdt j =
      dmassdP c j*dpdt j*c.vol j - c.source j*c.vol j + cellOutflow c (subfaceFlux c) j := by
  unfold tsFunction ifunctionVertices
  rw [tsCellLoop_apply, vertexLoop_apply, if_pos ⟨hj, own.cell j⟩, zero_add, add_comm]
  congr 1
  unfold cellOutflow overSubfaces
  refine sum_congr rfl fun v _ => sum_congr rfl fun i _ => ?_
  have ha : active c v i := ⟨own.vert v, own.face _⟩
  rw [if_pos ha]
  unfold fluxTerm
  have e1 : (0 ≤ (faceOf c v i).up ∧ c.isLocal (faceOf c v i).up.toNat = true ∧
      j = (faceOf c v i).up.toNat) ↔ (faceOf c v i).up = j := by
    simp only [own.cell, true_and]; omega
  have e2 : (0 ≤ (faceOf c v i).dn ∧ c.isLocal (faceOf c v i).dn.toNat = true ∧
      j = (faceOf c v i).dn.toNat) ↔ (faceOf c v i).dn = j := by
    simp only [own.cell, true_and]; omega
  rw [if_congr e1 rfl rfl, if_congr e2 rfl rfl]
  beta_reduce
  rw [sub_eq_add_neg]
  congr 1
  split <;> simp

theorem C48_cell_snes (c : Ctx) (own : OwnsAll c) (dtime : ℝ) (accumPrev : Nat → ℝ) (j : Nat)
    (hj : j < c.numCells) :
    snesFunction c dtime accumPrev j =
      waterMass c j/dtime - accumPrev j - c.source j + cellOutflow c (subfaceFlux c) j := by
  have h := C48_cell c own (fun _ => 0) j hj
  unfold tsFunction at h
  rw [tsCellLoop_apply, if_pos ⟨hj, own.cell j⟩] at h
  unfold snesFunction
  rw [snesCellLoop_apply, if_pos ⟨hj, own.cell j⟩]
  have e : snesAccum c dtime j = waterMass c j/dtime := by
    unfold snesAccum waterMass; ring
  rw [e]
  linarith

/-- Time stepping: the residuals of all cells sum up to the change of storage minus the sources plus
what leaves through the boundary. -/
theorem C48_conservation (c : Ctx) (ok : FacesOk c) (own : OwnsAll c) (dpdt : Nat → ℝ) :
    ∑ j ∈ range c.numCells, tsFunction c dpdt j =
      (∑ j ∈ range c.numCells, (dmassdP c j*dpdt j*c.vol j - c.source j*c.vol j)) +
      overSubfaces c fun v i => outflow (faceOf c v i) (subfaceFlux c v i) := by
  unfold tsFunction ifunctionVertices
  simp only [tsCellLoop_apply]
  rw [sum_add_distrib, vertexLoop_total_all c ok own, add_comm]
  congr 1
  refine sum_congr rfl fun j hj => ?_
  rw [if_pos ⟨mem_range.1 hj, own.cell j⟩]

/-- The same for the SNES residual. -/
theorem C48_conservation_snes (c : Ctx) (ok : FacesOk c) (own : OwnsAll c) (dtime : ℝ)
    (accumPrev : Nat → ℝ) :
    ∑ j ∈ range c.numCells, snesFunction c dtime accumPrev j =
      (∑ j ∈ range c.numCells, (waterMass c j/dtime - accumPrev j - c.source j)) +
      overSubfaces c fun v i => outflow (faceOf c v i) (subfaceFlux c v i) := by
  unfold snesFunction ifunctionVertices
  simp only [snesCellLoop_apply]
  rw [sum_add_distrib, vertexLoop_total_all c ok own, add_comm]
  congr 1
  refine sum_congr rfl fun j hj => ?_
  rw [if_pos ⟨mem_range.1 hj, own.cell j⟩]
  have e : snesAccum c dtime j = waterMass c j/dtime := by
    unfold snesAccum waterMass; ring
  rw [e]

theorem preSolve_apply (c : Ctx) (dtime : ℝ) (old : Nat → ℝ) (j : Nat) :
    preSolve c dtime old j = if j < c.numCells ∧ c.isLocal j = true then snesAccum c dtime j
      else old j := by
  unfold preSolve
  exact fillLoop_apply c.numCells c.isLocal (snesAccum c dtime) old j

/-- A converged step: when `accumulation_prev` was filled from the state `c0` before the step and
the residual vanishes at the state `c` (same mesh), the mass of water in the mesh has changed by
the sources minus what left through the boundary. -/
theorem C48_mass_balance (c0 c : Ctx) (ok : FacesOk c) (own : OwnsAll c) (dtime : ℝ)
    (hdt : dtime ≠ 0) (old : Nat → ℝ) (hc : c0.numCells = c.numCells)
    (hl : c0.isLocal = c.isLocal)
    (h : ∀ j < c.numCells, snesFunction c dtime (preSolve c0 dtime old) j = 0) :
    ∑ j ∈ range c.numCells, waterMass c j = ∑ j ∈ range c.numCells, waterMass c0 j +
      dtime*((∑ j ∈ range c.numCells, c.source j) -
        overSubfaces c fun v i => outflow (faceOf c v i) (subfaceFlux c v i)) := by
  have t := C48_conservation_snes c ok own dtime (preSolve c0 dtime old)
  rw [sum_eq_zero fun j hj => h j (mem_range.1 hj)] at t
  have e : ∀ j ∈ range c.numCells, waterMass c j/dtime - preSolve c0 dtime old j - c.source j =
      (waterMass c j - waterMass c0 j)/dtime - c.source j := by
    intro j hj
    rw [preSolve_apply, if_pos ⟨by rw [hc]; exact mem_range.1 hj, by rw [hl]; exact own.cell j⟩]
    unfold snesAccum waterMass
    ring
  rw [sum_congr rfl e, sum_sub_distrib, ← sum_div, sum_sub_distrib] at t
  field_simp at t
  linarith

/-- Any distribution over `ranks` ranks that see the mesh in the same numbering.  Rank `r` owns the
cells with `owner j = r`; as `IdentifyLocalVertices` and `IdentifyLocalFaces` have it, a vertex is
local where one of its cells is, a face where one of its cells is.  Whatever fluxes the ranks
compute, as long as two ranks agree on a subface both work on, the residuals of all cells sum up
to what leaves through the boundary. -/
theorem C48_parallel (ranks : Nat) (c : Ctx) (ctx : Nat → Ctx) (owner : Nat → Nat)
    (ok : FacesOk c) (q : Nat → Nat → ℝ) (qr : Nat → Nat → Nat → ℝ)
    (hown : ∀ j, owner j < ranks)
    (hn : ∀ r, (ctx r).numCells = c.numCells ∧ (ctx r).numVertices = c.numVertices)
    (hrow : ∀ r v, ((ctx r).vert v).nRows = (c.vert v).nRows)
    (hface : ∀ r v i, (faceOf (ctx r) v i).up = (faceOf c v i).up ∧
      (faceOf (ctx r) v i).dn = (faceOf c v i).dn)
    (hlocal : ∀ r j, (ctx r).isLocal j = true ↔ owner j = r)
    (hlface : ∀ r v i, IsSubface c v i → (faceOf (ctx r) v i).isLocal =
      decide ((0 ≤ (faceOf c v i).up ∧ owner (faceOf c v i).up.toNat = r) ∨
        (0 ≤ (faceOf c v i).dn ∧ owner (faceOf c v i).dn.toNat = r)))
    (hlvert : ∀ r v, ((ctx r).vert v).isLocal = true ↔
      ∃ k < (c.vert v).nCells, owner ((c.vert v).cell k) = r)
    (hmem : ∀ v i, IsSubface c v i →
      (0 ≤ (faceOf c v i).up → ∃ k < (c.vert v).nCells, (c.vert v).cell k = (faceOf c v i).up.toNat) ∧
      (0 ≤ (faceOf c v i).dn → ∃ k < (c.vert v).nCells, (c.vert v).cell k = (faceOf c v i).dn.toNat))
    (hq : ∀ r v i, active (ctx r) v i → qr r v i = q v i) :
    ∑ r ∈ range ranks, ∑ j ∈ range c.numCells, vertexLoop (ctx r) (qr r) (fun _ => 0) j =
      overSubfaces c fun v i => outflow (faceOf c v i) (q v i) := by
  have okr : ∀ r, FacesOk (ctx r) := by
    intro r
    constructor
    · intro v i hs
      rw [(hface r v i).1, (hn r).1]
      exact ok.up v i ⟨by rw [← (hn r).2]; exact hs.1, by rw [← hrow r v]; exact hs.2⟩
    · intro v i hs
      rw [(hface r v i).2, (hn r).1]
      exact ok.dn v i ⟨by rw [← (hn r).2]; exact hs.1, by rw [← hrow r v]; exact hs.2⟩
  have e : ∀ r ∈ range ranks,
      ∑ j ∈ range c.numCells, vertexLoop (ctx r) (qr r) (fun _ => 0) j =
      overSubfaces c fun v i =>
        ((if 0 ≤ (faceOf c v i).up ∧ owner (faceOf c v i).up.toNat = r then 1 else 0) -
         (if 0 ≤ (faceOf c v i).dn ∧ owner (faceOf c v i).dn.toNat = r then 1 else 0))*q v i := by
    intro r _
    have t := vertexLoop_total (ctx r) (okr r) (qr r)
    rw [(hn r).1] at t
    rw [t]
    unfold overSubfaces
    rw [(hn r).2]
    refine sum_congr rfl fun v hv => ?_
    rw [hrow]
    refine sum_congr rfl fun i hi => ?_
    have hs : IsSubface c v i := ⟨mem_range.1 hv, mem_range.1 hi⟩
    beta_reduce
    rw [(hface r v i).1, (hface r v i).2]
    have hu := hlocal r (faceOf c v i).up.toNat
    have hd := hlocal r (faceOf c v i).dn.toNat
    by_cases hup : 0 ≤ (faceOf c v i).up ∧ owner (faceOf c v i).up.toNat = r
    · have ha : active (ctx r) v i := by
        refine ⟨?_, ?_⟩
        · obtain ⟨k, hk, ek⟩ := (hmem v i hs).1 hup.1
          exact (hlvert r v).2 ⟨k, hk, by rw [ek]; exact hup.2⟩
        · have := hlface r v i hs
          rw [decide_eq_true (Or.inl hup)] at this
          exact this
      rw [if_pos ha, hq r v i ha, if_congr (and_congr Iff.rfl hu) rfl rfl,
        if_congr (and_congr Iff.rfl hd) rfl rfl]
    · by_cases hdn : 0 ≤ (faceOf c v i).dn ∧ owner (faceOf c v i).dn.toNat = r
      · have ha : active (ctx r) v i := by
          refine ⟨?_, ?_⟩
          · obtain ⟨k, hk, ek⟩ := (hmem v i hs).2 hdn.1
            exact (hlvert r v).2 ⟨k, hk, by rw [ek]; exact hdn.2⟩
          · have := hlface r v i hs
            rw [decide_eq_true (Or.inr hdn)] at this
            exact this
        rw [if_pos ha, hq r v i ha, if_congr (and_congr Iff.rfl hu) rfl rfl,
          if_congr (and_congr Iff.rfl hd) rfl rfl]
      · rw [if_neg hup, if_neg hdn, if_congr (and_congr Iff.rfl hu) rfl rfl,
          if_congr (and_congr Iff.rfl hd) rfl rfl, if_neg hup, if_neg hdn]
        simp
  rw [sum_congr rfl e]
  unfold overSubfaces
  rw [sum_comm]
  refine sum_congr rfl fun v _ => ?_
  rw [sum_comm]
  refine sum_congr rfl fun i _ => ?_
  rw [← sum_mul, sum_sub_distrib]
  have one : ∀ id : ℤ, (∑ r ∈ range ranks, if 0 ≤ id ∧ owner id.toNat = r then (1:ℝ) else 0) =
      if 0 ≤ id then 1 else 0 := by
    intro id
    by_cases h : 0 ≤ id
    · simp only [h, true_and, if_true]
      rw [sum_ite_eq (range ranks) (owner id.toNat)]
      simp [hown]
    · simp [h]
  rw [one, one]
  exact (outflow_eq _ _).symm

/-! ### A mesh to which all this applies

Two cells in a row between which row 0 of the only vertex lies; row 1 is on a boundary face of
cell 1, which is a Dirichlet boundary. -/

namespace FluxWitness

def face : Nat → MFace
  | 0 => ⟨0, 1, true⟩
  | _ => ⟨1, -1, true⟩

def M : Nat → Nat → ℝ
  | 0, 0 => -1
  | 0, 1 => 1
  | 1, 1 => -1
  | 1, 2 => 1
  | _, _ => 0

def v : Vert :=
  { isLocal := true, nRows := 2, face := id, subface := fun _ => 0, wsub := fun _ => 0, nCells := 2, cell := id, T := M
    nCols := 3, col := id, M := M }

def s (p : ℝ) : Side := { P := p, S := 1, Kr := 1, vis := 1, rho := 1 }

def c : Ctx :=
  { numVertices := 1, numCells := 2, numBnd := 1, vert := fun _ => v, face := face
    isLocal := fun _ => true, vol := fun _ => 2, por := fun _ => 1, source := fun _ => 0
    cells := fun j => match j with
      | 0 => s 5
      | _ => s 3
    d2S := fun _ => 0, d2rho := fun _ => 0, bnds := fun _ => s 2, bc := .dirichlet, Pref := 0
    grav := fun _ => 0 }

theorem facesOk : FacesOk c := by
  constructor <;> intro w i hs <;> rcases i with _ | _ | i <;>
    simp [c, v, face, faceOf]

theorem ownsAll : OwnsAll c := by
  refine ⟨fun _ => rfl, fun f => ?_, fun _ => rfl⟩
  rcases f with _ | f <;> rfl

theorem ttimesP_0 : ttimesP c 0 = -2 := by
  simp [ttimesP, transMat_apply, wslot, c, v, slot, M, pVec, s, sum_range_succ]; norm_num

theorem ttimesP_4 : ttimesP c 4 = -1 := by
  simp [ttimesP, transMat_apply, wslot, c, v, slot, M, pVec, s, sum_range_succ]; norm_num

/-- 2 from cell 0 to cell 1, 1 out of cell 1. -/
theorem flux : subfaceFlux c 0 0 = 2 ∧ subfaceFlux c 0 1 = 1 := by
  constructor
  · have h : subfaceFlux c 0 0 = fluxm c (face 0) (ttimesP c 0) 0 := rfl
    rw [h, ttimesP_0]
    simp [fluxm, shut, denAvg, ukvr, driving, side, face, c, s]; norm_num
  · have h : subfaceFlux c 0 1 = fluxm c (face 1) (ttimesP c 4) 0 := rfl
    rw [h, ttimesP_4]
    simp [fluxm, shut, denAvg, ukvr, driving, side, face, c, s]; norm_num

end FluxWitness

/-- Non-vacuity: fluxes inside and out of the mesh, and a residual that sums up to the outflow. -/
example : FacesOk FluxWitness.c ∧ OwnsAll FluxWitness.c ∧ subfaceFlux FluxWitness.c 0 0 = 2 ∧
    ∑ j ∈ range FluxWitness.c.numCells, tsFunction FluxWitness.c (fun _ => 0) j = 1 := by
  refine ⟨FluxWitness.facesOk, FluxWitness.ownsAll, FluxWitness.flux.1, ?_⟩
  rw [C48_conservation _ FluxWitness.facesOk FluxWitness.ownsAll]
  have h1 : (∑ j ∈ range FluxWitness.c.numCells, (dmassdP FluxWitness.c j*(fun _ => (0:ℝ)) j*FluxWitness.c.vol j
      - FluxWitness.c.source j*FluxWitness.c.vol j)) = 0 := by simp [FluxWitness.c]
  rw [h1, zero_add]
  have e : overSubfaces FluxWitness.c (fun v i => outflow (faceOf FluxWitness.c v i)
      (subfaceFlux FluxWitness.c v i)) =
      outflow (FluxWitness.face 0) (subfaceFlux FluxWitness.c 0 0) +
      outflow (FluxWitness.face 1) (subfaceFlux FluxWitness.c 0 1) := by
    unfold overSubfaces
    simp only [FluxWitness.c, FluxWitness.v, sum_range_succ, sum_range_zero, zero_add]
    rfl
  rw [e, FluxWitness.flux.1, FluxWitness.flux.2]
  simp [outflow, FluxWitness.face]

/-- Non-vacuity of the mass balance: a step during which water flows through the mesh. -/
example : ∃ c0 c : Ctx, FacesOk c ∧ OwnsAll c ∧ c0.numCells = c.numCells ∧ c0.isLocal = c.isLocal ∧
    (∀ j < c.numCells, snesFunction c 1 (preSolve c0 1 (fun _ => 0)) j = 0) ∧
    subfaceFlux c 0 0 = 2 := by
  let c : Ctx := { FluxWitness.c with source := fun j => if j = 0 then 2 else -1 }
  have ok : FacesOk c := ⟨FluxWitness.facesOk.up, FluxWitness.facesOk.dn⟩
  have own : OwnsAll c := ⟨FluxWitness.ownsAll.vert, FluxWitness.ownsAll.face, FluxWitness.ownsAll.cell⟩
  have f0 : subfaceFlux c 0 0 = 2 := FluxWitness.flux.1
  have f1 : subfaceFlux c 0 1 = 1 := FluxWitness.flux.2
  refine ⟨c, c, ok, own, rfl, rfl, ?_, f0⟩
  intro j hj
  rw [C48_cell_snes c own _ _ j hj, preSolve_apply, if_pos ⟨hj, own.cell j⟩]
  have e : ∀ j, cellOutflow c (subfaceFlux c) j =
      ((if (0:ℤ) = j then (2:ℝ) else 0) - (if (1:ℤ) = j then 2 else 0)) +
      ((if (1:ℤ) = j then (1:ℝ) else 0) - (if (-1:ℤ) = j then 1 else 0)) := by
    intro j
    rw [← f0, ← f1]
    unfold cellOutflow overSubfaces
    simp only [c, FluxWitness.c, FluxWitness.v, sum_range_succ, sum_range_zero, zero_add]
    rfl
  rw [e]
  have : j = 0 ∨ j = 1 := by
    have : j < 2 := hj
    omega
  rcases this with rfl | rfl <;>
    simp [waterMass, snesAccum, c, FluxWitness.c, FluxWitness.s] <;> norm_num

/-- Non-vacuity of the parallel statement: cell 0 on rank 0, cell 1 on rank 1. -/
example : ∃ (ctx : Nat → Ctx) (owner : Nat → Nat), (∀ j, owner j < 2) ∧ owner 0 ≠ owner 1 ∧
    (∀ r, (ctx r).numCells = 2 ∧ (ctx r).numVertices = 1) ∧
    (∀ r v, ((ctx r).vert v).nRows = (FluxWitness.c.vert v).nRows) ∧
    (∀ r v i, (faceOf (ctx r) v i).up = (faceOf FluxWitness.c v i).up ∧
      (faceOf (ctx r) v i).dn = (faceOf FluxWitness.c v i).dn) ∧
    (∀ r j, (ctx r).isLocal j = true ↔ owner j = r) ∧
    (∀ r v i, IsSubface FluxWitness.c v i → (faceOf (ctx r) v i).isLocal =
      decide ((0 ≤ (faceOf FluxWitness.c v i).up ∧ owner (faceOf FluxWitness.c v i).up.toNat = r) ∨
        (0 ≤ (faceOf FluxWitness.c v i).dn ∧ owner (faceOf FluxWitness.c v i).dn.toNat = r))) ∧
    (∀ r v, ((ctx r).vert v).isLocal = true ↔
      ∃ k < (FluxWitness.c.vert v).nCells, owner ((FluxWitness.c.vert v).cell k) = r) := by
  refine ⟨fun r => { FluxWitness.c with
      isLocal := fun j => decide ((if j = 0 then 0 else 1) = r)
      face := fun f => ⟨(FluxWitness.face f).up, (FluxWitness.face f).dn,
        if f = 0 then decide (r = 0 ∨ r = 1) else decide (r = 1)⟩
      vert := fun _ => { FluxWitness.v with isLocal := decide (r = 0 ∨ r = 1) } },
    fun j => if j = 0 then 0 else 1, ?_, ?_, ?_, ?_, ?_, ?_, ?_, ?_⟩
  · intro j; dsimp only; split <;> omega
  · simp
  · intro r; exact ⟨rfl, rfl⟩
  · intro r v; rfl
  · intro r v i; exact ⟨rfl, rfl⟩
  · intro r j; simp
  · intro r v i hs
    rcases i with _ | _ | i
    · simp [faceOf, FluxWitness.c, FluxWitness.v, FluxWitness.face]
      by_cases h0 : r = 0
      · subst h0; simp
      · by_cases h1 : r = 1
        · subst h1; simp
        · have a : ¬ 0 = r := fun e => h0 e.symm
          have b : ¬ 1 = r := fun e => h1 e.symm
          simp [h0, h1, a, b]
    · simp [faceOf, FluxWitness.c, FluxWitness.v, FluxWitness.face, eq_comm]
    · exact absurd hs.2 (by simp [FluxWitness.c, FluxWitness.v])
  · intro r v
    simp only [FluxWitness.c, FluxWitness.v, decide_eq_true_eq]
    constructor
    · rintro (h | h)
      · exact ⟨0, by norm_num, by simp [h]⟩
      · exact ⟨1, by norm_num, by simp [h]⟩
    · rintro ⟨k, hk, e⟩
      have : k = 0 ∨ k = 1 := by omega
      rcases this with rfl | rfl
      · left; simpa using e.symm
      · right; simpa using e.symm

/-! ## C49 : direction of the flow, upwinding, seepage -/

/-- The flux is density times mobility times minus the driving term. -/
theorem fluxm_eq (c : Ctx) (f : MFace) (TP G : ℝ) (h : ¬ shut c f TP G) :
    fluxm c f TP G = -(denAvg c f*ukvr c f TP G*driving c f TP G) := by
  unfold fluxm driving
  rw [if_neg h]; ring

/-- What a side must satisfy for the signs. -/
def GoodSides (c : Ctx) (f : MFace) : Prop := Physical (side c f.up) ∧ Physical (side c f.dn)

theorem denAvg_pos (c : Ctx) (f : MFace) (g : GoodSides c f) : 0 < denAvg c f := by
  unfold denAvg
  have h1 := g.1.rho
  have h2 := g.2.rho
  have : (0.5:ℝ) > 0 := by norm_num
  have : (0.0:ℝ) = 0 := by norm_num
  rw [this]
  positivity

theorem ukvr_nonneg (c : Ctx) (f : MFace) (g : GoodSides c f) (TP G : ℝ) :
    0 ≤ ukvr c f TP G := by
  unfold ukvr
  split
  · exact div_nonneg g.1.Kr g.1.vis.le
  · exact div_nonneg g.2.Kr g.2.vis.le

/-- Water flows down the driving term: never from the up to the down side when it is positive, never
from down to up when it is negative. -/
theorem C49_direction (c : Ctx) (f : MFace) (g : GoodSides c f) (TP G : ℝ) :
    (TP + denAvg c f*G < 0 → 0 ≤ fluxm c f TP G) ∧
    (0 ≤ TP + denAvg c f*G → fluxm c f TP G ≤ 0) := by
  have hd := denAvg_pos c f g
  have hk := ukvr_nonneg c f g TP G
  by_cases h : shut c f TP G
  · have : fluxm c f TP G = 0 := by unfold fluxm; rw [if_pos h]; norm_num
    rw [this]; exact ⟨fun _ => le_rfl, fun _ => le_rfl⟩
  · rw [fluxm_eq c f TP G h]
    have hp : 0 ≤ denAvg c f*ukvr c f TP G := mul_nonneg hd.le hk
    unfold driving
    exact ⟨fun hx => by nlinarith, fun hx => by nlinarith⟩

/-- The amount: average density times the mobility `Kr/vis` of the side the water comes from times
the driving term, unless a seepage face shuts. -/
theorem C49_upwind_value (c : Ctx) (f : MFace) (TP G : ℝ)
    (hs : ¬ (c.bc = .seepage ∧ (f.up < 0 ∨ f.dn < 0))) :
    fluxm c f TP G =
      -(((side c f.up).rho + (side c f.dn).rho)/2 *
        (if TP + ((side c f.up).rho + (side c f.dn).rho)/2*G < 0
         then (side c f.up).Kr/(side c f.up).vis else (side c f.dn).Kr/(side c f.dn).vis) *
        (TP + ((side c f.up).rho + (side c f.dn).rho)/2*G)) := by
  have h : ¬ shut c f TP G := by
    unfold shut; split <;> tauto
  have ed : denAvg c f = ((side c f.up).rho + (side c f.dn).rho)/2 := by
    unfold denAvg; norm_num; ring
  rw [fluxm_eq c f TP G h]
  unfold ukvr driving
  rw [ed, show ((0.0:ℝ)) = 0 by norm_num]

/-- The same with the two sides spelt out: boundary face number `k` (the cells of the face are
`-(k+1)` and `i`) contributes its own boundary state `bnds k`. -/
theorem C49_upwind_boundary_value (c : Ctx) (f : MFace) (TP G : ℝ) (k i : Nat)
    (hup : f.up = -((k : ℤ) + 1)) (hdn : f.dn = i) (hs : c.bc ≠ .seepage) :
    fluxm c f TP G =
      -(((c.bnds k).rho + (c.cells i).rho)/2 *
        (if TP + ((c.bnds k).rho + (c.cells i).rho)/2*G < 0
         then (c.bnds k).Kr/(c.bnds k).vis else (c.cells i).Kr/(c.cells i).vis) *
        (TP + ((c.bnds k).rho + (c.cells i).rho)/2*G)) := by
  have h1 : side c f.up = c.bnds k := by
    unfold side
    rw [hup, if_neg (by omega)]
    congr 1
    omega
  have h2 : side c f.dn = c.cells i := by
    unfold side
    rw [hdn, if_pos (by omega)]
    rfl
  rw [C49_upwind_value c f TP G (fun h => hs h.1), h1, h2]

/-- Only the side the water comes from matters: two states whose sides have the same densities and
which agree on that side give the same flux, whatever the mobility of the other side. -/
theorem C49_upwind_only (c c' : Ctx) (f : MFace) (TP G : ℝ)
    (hs : ¬ (f.up < 0 ∨ f.dn < 0))
    (hu : (side c' f.up).rho = (side c f.up).rho) (hd : (side c' f.dn).rho = (side c f.dn).rho)
    (hup : TP + ((side c f.up).rho + (side c f.dn).rho)/2*G < 0 →
      (side c' f.up).Kr = (side c f.up).Kr ∧ (side c' f.up).vis = (side c f.up).vis)
    (hdn : 0 ≤ TP + ((side c f.up).rho + (side c f.dn).rho)/2*G →
      (side c' f.dn).Kr = (side c f.dn).Kr ∧ (side c' f.dn).vis = (side c f.dn).vis) :
    fluxm c' f TP G = fluxm c f TP G := by
  rw [C49_upwind_value c f TP G (by tauto), C49_upwind_value c' f TP G (by tauto), hu, hd]
  by_cases h : TP + ((side c f.up).rho + (side c f.dn).rho)/2*G < 0
  · rw [if_pos h, if_pos h, (hup h).1, (hup h).2]
  · rw [if_neg h, if_neg h, (hdn (not_lt.1 h)).1, (hdn (not_lt.1 h)).2]

/-- A seepage boundary whose pressure does not exceed the reference pressure lets nothing in:
whichever side of the face the boundary is on, the flux out of the mesh is not negative. -/
theorem C49_seepage_no_inflow (c : Ctx) (f : MFace) (g : GoodSides c f) (TP G : ℝ)
    (hbc : c.bc = .seepage)
    (hone : (f.up < 0 ∧ 0 ≤ f.dn ∧ (side c f.up).P ≤ c.Pref) ∨
      (0 ≤ f.up ∧ f.dn < 0 ∧ (side c f.dn).P ≤ c.Pref)) :
    0 ≤ outflow f (fluxm c f TP G) := by
  have dir := C49_direction c f g TP G
  have z : (0.0:ℝ) = 0 := by norm_num
  rcases hone with ⟨h1, h2, h3⟩ | ⟨h1, h2, h3⟩
  · unfold outflow
    rw [if_neg (by omega), if_pos h2]
    by_cases hx : TP + denAvg c f*G < 0
    · have : shut c f TP G := by
        unfold shut driving; rw [z, if_pos hx]; exact ⟨h1, hbc, h3⟩
      unfold fluxm; rw [if_pos this]; norm_num
    · have := dir.2 (not_lt.1 hx); linarith
  · unfold outflow
    rw [if_pos h1, if_neg (by omega)]
    by_cases hx : TP + denAvg c f*G < 0
    · exact dir.1 hx
    · have : shut c f TP G := by
        unfold shut driving; rw [z, if_neg hx]; exact ⟨h2, hbc, h3⟩
      unfold fluxm; rw [if_pos this]; norm_num

/-- Outflow through a seepage boundary is not throttled. -/
theorem C49_seepage_outflow (c : Ctx) (f : MFace) (TP G : ℝ)
    (hone : (f.up < 0 ∧ 0 ≤ f.dn ∧ 0 ≤ TP + denAvg c f*G) ∨
      (0 ≤ f.up ∧ f.dn < 0 ∧ TP + denAvg c f*G < 0)) :
    fluxm c f TP G = fluxm { c with bc := .dirichlet } f TP G := by
  have z : (0.0:ℝ) = 0 := by norm_num
  have h1 : ¬ shut c f TP G := by
    unfold shut driving; rw [z]
    rcases hone with ⟨h1, h2, h3⟩ | ⟨h1, h2, h3⟩
    · rw [if_neg (not_lt.2 h3)]; omega
    · rw [if_pos h3]; omega
  have h2 : ¬ shut { c with bc := .dirichlet } f TP G := by
    unfold shut; split <;> simp
  unfold fluxm
  rw [if_neg h1, if_neg h2]
  rfl

/-- A face with nothing driving it carries nothing. -/
theorem C49_at_rest (c : Ctx) (f : MFace) (TP G : ℝ) (h : TP + denAvg c f*G = 0) :
    fluxm c f TP G = 0 := by
  by_cases hs : shut c f TP G
  · unfold fluxm; rw [if_pos hs]; norm_num
  · rw [fluxm_eq c f TP G hs]; unfold driving; rw [h]; ring

/-- Non-vacuity: an internal face with water flowing through it; a seepage face with the boundary on
the up side that shuts. -/
example : GoodSides FluxWitness.c (FluxWitness.face 0) ∧ fluxm FluxWitness.c (FluxWitness.face 0) (-2) 0 = 2 ∧
    ∃ (c : Ctx) (f : MFace), GoodSides c f ∧ c.bc = .seepage ∧ f.up < 0 ∧ 0 ≤ f.dn ∧
      (side c f.up).P ≤ c.Pref ∧ shut c f (-1) 0 := by
  have ph : ∀ p, Physical (FluxWitness.s p) := fun p => ⟨by simp [FluxWitness.s], by simp [FluxWitness.s],
    by simp [FluxWitness.s]⟩
  refine ⟨⟨ph 5, ph 3⟩, ?_, { FluxWitness.c with bc := .seepage, Pref := 3 }, ⟨-1, 0, true⟩,
    ⟨?_, ?_⟩, rfl, by norm_num, by norm_num, ?_, ?_⟩
  · have := FluxWitness.flux.1
    have h : subfaceFlux FluxWitness.c 0 0 = fluxm FluxWitness.c (FluxWitness.face 0) (ttimesP FluxWitness.c 0) 0 := rfl
    rw [h, FluxWitness.ttimesP_0] at this
    exact this
  · have : side { FluxWitness.c with bc := .seepage, Pref := 3 } (-1) = FluxWitness.s 2 := by
      unfold side; rw [if_neg (by norm_num)]; rfl
    exact this ▸ ph 2
  · have : side { FluxWitness.c with bc := .seepage, Pref := 3 } 0 = FluxWitness.s 5 := by
      unfold side; rw [if_pos (by norm_num)]; rfl
    exact this ▸ ph 5
  · simp [side, FluxWitness.c, FluxWitness.s]; norm_num
  · simp [shut, driving, denAvg, side, FluxWitness.c, FluxWitness.s]; norm_num

/-! ## C56 : sources -/

/-- What a source `s` adds to the residual of a cell in time stepping and in the SNES formulation. -/
theorem C56_source_terms (c : Ctx) (dpdt accumPrev : Nat → ℝ) (dtime : ℝ) (s : Nat → ℝ) (j : Nat)
    (hj : j < c.numCells) (hl : c.isLocal j = true) :
    tsFunction { c with source := s } dpdt j - tsFunction { c with source := fun _ => 0 } dpdt j
      = -(s j*c.vol j) ∧
    snesFunction { c with source := s } dtime accumPrev j
      - snesFunction { c with source := fun _ => 0 } dtime accumPrev j = -s j := by
  have e : ∀ s, ifunctionVertices { c with source := s } (fun _ => 0) j =
      ifunctionVertices c (fun _ => 0) j := fun _ => rfl
  have e1 : ∀ s, dmassdP { c with source := s } j = dmassdP c j := fun _ => rfl
  have e2 : ∀ s, snesAccum { c with source := s } dtime j = snesAccum c dtime j := fun _ => rfl
  constructor
  · unfold tsFunction
    rw [tsCellLoop_apply, tsCellLoop_apply, if_pos ⟨hj, hl⟩, if_pos ⟨hj, hl⟩, e s, e (fun _ => 0), e1 s,
      e1 (fun _ => 0)]
    generalize ifunctionVertices c (fun _ => 0) j = x
    generalize dmassdP c j = y
    show x + (y*dpdt j*c.vol j - s j*c.vol j) - (x + (y*dpdt j*c.vol j - 0*c.vol j)) = _
    ring
  · unfold snesFunction
    rw [snesCellLoop_apply, snesCellLoop_apply, if_pos ⟨hj, hl⟩, if_pos ⟨hj, hl⟩, e s, e (fun _ => 0), e2 s,
      e2 (fun _ => 0)]
    generalize ifunctionVertices c (fun _ => 0) j = x
    generalize snesAccum c dtime j = y
    show x + (y - accumPrev j - s j) - (x + (y - accumPrev j - 0)) = _
    ring

/-- The two formulations give a source the same strength exactly in cells of volume 1 (or without
source): elsewhere a source means different things to them. -/
theorem C56_sources_partial (c : Ctx) (dpdt accumPrev : Nat → ℝ) (dtime : ℝ) (s : Nat → ℝ) (j : Nat)
    (hj : j < c.numCells) (hl : c.isLocal j = true) :
    tsFunction { c with source := s } dpdt j - tsFunction { c with source := fun _ => 0 } dpdt j =
      snesFunction { c with source := s } dtime accumPrev j
        - snesFunction { c with source := fun _ => 0 } dtime accumPrev j
    ↔ s j = 0 ∨ c.vol j = 1 := by
  obtain ⟨h1, h2⟩ := C56_source_terms c dpdt accumPrev dtime s j hj hl
  rw [h1, h2, neg_inj]
  constructor
  · intro h
    by_cases hs : s j = 0
    · exact Or.inl hs
    · right
      have : s j*(c.vol j - 1) = 0 := by linarith
      rcases mul_eq_zero.1 this with h | h
      · exact absurd h hs
      · linarith
  · rintro (h | h)
    · rw [h]; ring
    · rw [h]; ring

/-- The property fails: in a cell of volume 2 the two paths disagree. -/
example : ∃ (c : Ctx) (s : Nat → ℝ), 0 < c.numCells ∧ c.isLocal 0 = true ∧
    tsFunction { c with source := s } (fun _ => 0) 0
      - tsFunction { c with source := fun _ => 0 } (fun _ => 0) 0 ≠
    snesFunction { c with source := s } 1 (fun _ => 0) 0
      - snesFunction { c with source := fun _ => 0 } 1 (fun _ => 0) 0 := by
  refine ⟨FluxWitness.c, fun _ => 1, by simp [FluxWitness.c], rfl, fun h => ?_⟩
  have := (C56_sources_partial FluxWitness.c (fun _ => 0) (fun _ => 0) 1 (fun _ => 1) 0
    (by simp [FluxWitness.c]) rfl).1 h
  simp [FluxWitness.c] at this

/-! ## C57 : the transient-variable and DAE forms -/

/-- The transient variable is the mass of water in the cell. -/
theorem C57_variable_is_mass (c : Ctx) (old : Nat → ℝ) (j : Nat) (hj : j < c.numCells)
    (hl : c.isLocal j = true) : transientVar c old j = waterMass c j := by
  have : transientVar c old j = if j < c.numCells ∧ c.isLocal j = true
      then (c.cells j).rho*c.por j*(c.cells j).S*c.vol j else old j := by
    unfold transientVar
    exact fillLoop_apply c.numCells c.isLocal
      (fun i => (c.cells i).rho*c.por i*(c.cells i).S*c.vol i) old j
  rw [this, if_pos ⟨hj, hl⟩]
  unfold waterMass; ring

/-- With the rate of change `dm` of the mass of the cell, the residual has storage `dm*volume`, so
it is the balance `dm - source + outflow = 0` exactly when the volume is 1 or nothing changes:
the mass, which already contains the volume, is multiplied by it again. -/
theorem C57_storage_partial (c : Ctx) (own : OwnsAll c) (dm : Nat → ℝ) (j : Nat)
    (hj : j < c.numCells) :
    transientFunction c dm j =
      dm j*c.vol j - c.source j*c.vol j + cellOutflow c (subfaceFlux c) j ∧
    (transientFunction c dm j = dm j - c.source j*c.vol j + cellOutflow c (subfaceFlux c) j
      ↔ dm j = 0 ∨ c.vol j = 1) := by
  have h := C48_cell c own (fun _ => 0) j hj
  unfold tsFunction at h
  rw [tsCellLoop_apply, if_pos ⟨hj, own.cell j⟩] at h
  have e : transientFunction c dm j =
      dm j*c.vol j - c.source j*c.vol j + cellOutflow c (subfaceFlux c) j := by
    unfold transientFunction
    rw [transientCellLoop_apply, if_pos ⟨hj, own.cell j⟩]
    linarith
  refine ⟨e, ?_⟩
  rw [e]
  constructor
  · intro h
    by_cases hs : dm j = 0
    · exact Or.inl hs
    · right
      have : dm j*(c.vol j - 1) = 0 := by linarith
      rcases mul_eq_zero.1 this with h | h
      · exact absurd h hs
      · linarith
  · rintro (h | h)
    · rw [h]; ring
    · rw [h]; ring

/-- The DAE form: the constraint makes `m` the mass of the cell, and the balance multiplies its
rate of change by the volume once more. -/
theorem C57_dae_partial (c : Ctx) (m mt rp : Nat → ℝ) (j : Nat) :
    ((daeCell c m mt rp j).2 = 0 ↔ m j = waterMass c j) ∧
    ((daeCell c m mt rp j).1 = mt j - c.source j*c.vol j + rp j ↔ mt j = 0 ∨ c.vol j = 1) := by
  constructor
  · unfold daeCell waterMass
    constructor
    · intro h; simp only at h; linarith
    · intro h; simp only; rw [h]; ring
  · unfold daeCell
    constructor
    · intro h
      simp only at h
      by_cases hs : mt j = 0
      · exact Or.inl hs
      · right
        have : mt j*(c.vol j - 1) = 0 := by linarith
        rcases mul_eq_zero.1 this with h | h
        · exact absurd h hs
        · linarith
    · simp only
      rintro (h | h)
      · rw [h]; ring
      · rw [h]; ring

/-- The property fails in a cell of volume 2 whose mass changes. -/
example : ∃ (c : Ctx) (dm : Nat → ℝ), OwnsAll c ∧ 0 < c.numCells ∧
    transientFunction c dm 0 ≠ dm 0 - c.source 0*c.vol 0 + cellOutflow c (subfaceFlux c) 0 := by
  refine ⟨FluxWitness.c, fun _ => 1, FluxWitness.ownsAll, by simp [FluxWitness.c], fun h => ?_⟩
  have := ((C57_storage_partial FluxWitness.c FluxWitness.ownsAll (fun _ => 1) 0
    (by simp [FluxWitness.c])).2).1 h
  simp [FluxWitness.c] at this

end

end TDy.Mpfao.Props
