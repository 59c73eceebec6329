import Verif.Spec.FvtpfParallel
import Verif.Props.Fvtpf
import Mathlib.Tactic.IntervalCases

/-!
# C188: the equations of the two-point method and the number of processes
-/

namespace TDy.Fvtpf.Props

open TDy.Fvtpf TDy.Fvtpf.Spec TDy.Fvtpf.Proofs TDy.Geo Finset

noncomputable section

section
variable {g l : Ctx} {w : View}

theorem view_side_cell {id : ℤ} (h : 0 ≤ id) : w.side id = (w.cell id.toNat : ℤ) := if_pos h

theorem view_side_bnd {id : ℤ} (h : id < 0) : w.side id = -(w.bnd (-id - 1).toNat : ℤ) - 1 :=
  if_neg (not_le.2 h)

/-- A face whose sides have the same names has the same coefficient. -/
theorem dq_seen (s : Sees g l w) (f F : Face) (hd : 0 ≤ f.dn) (hd' : f.dn < l.numCells)
    (hu' : f.up < l.numCells) (eu : F.up = w.side f.up) (ed : F.dn = w.side f.dn)
    (eg : f.geom = F.geom) : faceDq l f = faceDq g F := by
  have kd : l.K0 f.dn.toNat = g.K0 F.dn.toNat := by
    rw [ed, view_side_cell hd, Int.toNat_natCast]
    exact (s.cells _ (by omega)).2.2.2.2
  have hD : 0 ≤ F.dn := by rw [ed, view_side_cell hd]; exact Int.natCast_nonneg _
  unfold faceDq upDownPerm
  rw [if_pos hd, if_pos hD, eg, kd]
  by_cases hu : 0 ≤ f.up
  · have ku : l.K0 f.up.toNat = g.K0 F.up.toNat := by
      rw [eu, view_side_cell hu, Int.toNat_natCast]
      exact (s.cells _ (by omega)).2.2.2.2
    have hU : 0 ≤ F.up := by rw [eu, view_side_cell hu]; exact Int.natCast_nonneg _
    rw [if_pos hu, if_pos hU, ku]
  · have hU : ¬ 0 ≤ F.up := by rw [eu, view_side_bnd (not_le.1 hu)]; omega
    rw [if_neg hu, if_neg hU]

theorem dists_seen (s : Sees g l w) (f F : Face) (eg : f.geom = F.geom) : dists l f = dists g F := by
  unfold dists; rw [s.gravity, eg]

theorem cell_seen (s : Sees g l w) {id ID : ℤ} (h : 0 ≤ id) (h' : id < l.numCells)
    (e : ID = w.side id) : l.cells id.toNat = g.cells ID.toNat := by
  rw [e, view_side_cell h, Int.toNat_natCast]
  exact (s.cells _ (by omega)).1

theorem bnd_seen (s : Sees g l w) {id ID : ℤ} (h : id < 0) (h' : -(l.numBnd : ℤ) ≤ id)
    (e : ID = w.side id) : bndAt l (bndIndex id) = bndAt g (bndIndex ID) := by
  have hb : (-id - 1).toNat < l.numBnd := by omega
  have hB := s.bndLt _ hb
  have e' : bndIndex ID = (w.bnd (-id - 1).toNat : ℤ) := by
    unfold bndIndex; rw [e, view_side_bnd h]; ring
  unfold bndAt
  rw [e', if_pos (by unfold bndIndex; omega), if_pos (by omega), Int.toNat_natCast]
  unfold bndIndex
  rw [s.bnds _ hb]

theorem residual_seen (s : Sees g l w) (f F : Face) (hu : 0 ≤ f.up) (hu' : f.up < l.numCells)
    (hd : 0 ≤ f.dn) (hd' : f.dn < l.numCells) (eu : F.up = w.side f.up) (ed : F.dn = w.side f.dn)
    (eg : f.geom = F.geom) (old : ℝ) : richardsResidual l f old = richardsResidual g F old := by
  unfold richardsResidual
  rw [dq_seen s f F hd hd' hu' eu ed eg, dists_seen s f F eg, eg, cell_seen s hu hu' eu,
    cell_seen s hd hd' ed]

theorem jacobian_seen (s : Sees g l w) (f F : Face) (hu : 0 ≤ f.up) (hu' : f.up < l.numCells)
    (hd : 0 ≤ f.dn) (hd' : f.dn < l.numCells) (eu : F.up = w.side f.up) (ed : F.dn = w.side f.dn)
    (eg : f.geom = F.geom) (old : ℝ × ℝ) : richardsJacobian l f old = richardsJacobian g F old := by
  unfold richardsJacobian
  rw [dq_seen s f F hd hd' hu' eu ed eg, dists_seen s f F eg, eg, cell_seen s hu hu' eu,
    cell_seen s hd hd' ed]

/-- Sums over the faces of the process and of the mesh. -/
theorem sum_seen (s : Sees g l w) {a : Nat} (ha : a < l.numCells) (hl : l.isLocal a = true)
    (T U : Nat → ℝ) (h0 : ∀ i < l.numFaces, T i ≠ 0 → (l.face i).isLocal = true)
    (hU : ∀ I < g.numFaces, U I ≠ 0 → (g.face I).up = w.cell a ∨ (g.face I).dn = w.cell a)
    (e : ∀ i < l.numFaces, (l.face i).isLocal = true → T i = U (w.face i)) :
    ∑ i ∈ range l.numFaces, T i = ∑ I ∈ range g.numFaces, U I := by
  refine sum_bij_ne_zero (fun i _ _ => w.face i) ?_ ?_ ?_ ?_
  · intro i hi hne
    have hi := mem_range.1 hi
    exact mem_range.2 (s.faceLt i hi (h0 i hi hne))
  · intro i hi hne i' hi' hne' ee
    have hi := mem_range.1 hi
    have hi' := mem_range.1 hi'
    exact s.faceInj i hi i' hi' (h0 i hi hne) (h0 i' hi' hne') ee
  · intro I hI hne
    have hI := mem_range.1 hI
    obtain ⟨i, hi, hli, rfl⟩ := s.cover a ha hl I hI (hU I hI hne)
    exact ⟨i, mem_range.2 hi, by rw [e i hi hli]; exact hne, rfl⟩
  · intro i hi hne
    have hi := mem_range.1 hi
    exact e i hi (h0 i hi hne)

end

/-- Exchanging the sides of a face exchanges the two derivatives and their signs. -/
theorem jacobian_swap (c : Ctx) (f : Face) (old old' : ℝ × ℝ)
    (hu : 0 ≤ f.up) (hdn : 0 ≤ f.dn) (hd : f.geom.dUp + f.geom.dDn ≠ 0)
    (hm : mobile (c.cells f.up.toNat) (c.cells f.dn.toNat))
    (hdry : ¬ ((c.cells f.up.toNat).S < 1e-8 ∧ (c.cells f.dn.toNat).S < 1e-8))
    (hflow : dphi (dists c f).1 (dists c f).2 (c.cells f.up.toNat) (c.cells f.dn.toNat) ≠ 0) :
    richardsJacobian c (swapFace f) old' =
      (-(richardsJacobian c f old).2, -(richardsJacobian c f old).1) := by
  have hDq : faceDq c (swapFace f) = faceDq c f := by
    have hdir : ∀ K, directional (swapGeom f.geom).u K = directional f.geom.u K := by
      intro K; simp [directional, swapGeom]
    unfold faceDq upDownPerm
    simp only [swapFace, hu, hdn, if_true, hdir]
    simp only [swapGeom, faceCoefficient]
    rw [mul_comm (directional _ (c.K0 f.dn.toNat)), add_comm (f.geom.dDn * _)]
  have hds : dists c (swapFace f) = (-(dists c f).1, 1 - (dists c f).2) :=
    weights_swap c.gravity f.geom hd
  unfold richardsJacobian
  rw [hDq, hds]
  simp only [swapFace]
  generalize c.cells f.up.toNat = a at *
  generalize c.cells f.dn.toNat = b at *
  generalize (dists c f).1 = D at *
  generalize (dists c f).2 = w at *
  have huw : upweight (1 - w) b a = 1 - upweight w a b := by
    unfold upweight
    by_cases h1 : a.S < 1e-8
    · have h2 : ¬ b.S < 1e-8 := fun h => hdry ⟨h1, h⟩
      simp only [h1, h2, if_true, if_false]; norm_num
    · by_cases h2 : b.S < 1e-8
      · simp only [h1, h2, if_true, if_false]; norm_num
      · simp only [h1, h2, if_false]
  have one : (1.0:ℝ) = 1 := by norm_num
  have zero : (0.0:ℝ) = 0 := by norm_num
  have hden : denAve (1 - w) b a = denAve w a b := by
    unfold denAve; rw [huw, one]; ring
  have hphi : dphi (-D) (1 - w) b a = -dphi D w a b := by
    unfold dphi; rw [hden]; ring
  unfold jacobian
  rw [if_pos hm, if_pos ((mobile_comm _ _).1 hm)]
  simp only [hden, hphi, huw, swapGeom, one, zero]
  rcases lt_or_gt_of_ne hflow with h | h
  · have h1 : ¬ dphi D w a b ≥ 0 := by linarith
    have h2 : -dphi D w a b ≥ 0 := by linarith
    simp only [h1, h2, if_true, if_false]
    refine Prod.ext ?_ ?_ <;> (dsimp only; ring)
  · have h1 : dphi D w a b ≥ 0 := by linarith
    have h2 : ¬ -dphi D w a b ≥ 0 := by linarith
    simp only [h1, h2, if_true, if_false]
    refine Prod.ext ?_ ?_ <;> (dsimp only; ring)

section
variable {g l : Ctx} {w : View}

theorem owns_iff (s : Sees g l w) {a : Nat} (ha : a < l.numCells) {id ID : ℤ} (h : 0 ≤ id)
    (h' : id < l.numCells) (e : ID = w.side id) : w.cell a = ID.toNat ↔ a = id.toNat := by
  rw [e, view_side_cell h, Int.toNat_natCast]
  exact ⟨fun k => s.cellInj a ha _ (by omega) k, fun k => by rw [← k]⟩

theorem side_nonneg {id ID : ℤ} (h : 0 ≤ id) (e : ID = w.side id) : 0 ≤ ID := by
  rw [e, view_side_cell h]; exact Int.natCast_nonneg _

theorem side_lt (s : Sees g l w) {id ID : ℤ} (h : 0 ≤ id) (h' : id < l.numCells)
    (e : ID = w.side id) : ID.toNat < g.numCells := by
  rw [e, view_side_cell h, Int.toNat_natCast]; exact s.cellLt _ (by omega)

/-- What an internal face gives an owned cell. -/
theorem internalTerm_seen (al : Alone g) (s : Sees g l w) (hm : AllMobile g) (hn : NotDry g l w)
    (junk junk' : Nat → ℝ) {a i : Nat} (ha : a < l.numCells) (hl : l.isLocal a = true)
    (hi : i < l.numFaces) (hli : (l.face i).isLocal = true) :
    internalTerm l junk i a = internalTerm g junk' (w.face i) (w.cell a) := by
  have hI := s.faceLt i hi hli
  have hk := (s.kind i hi hli).1
  unfold internalTerm
  dsimp only
  by_cases hint : (l.face i).isInternal = true
  swap
  · rw [if_neg (fun h => hint h.2), if_neg (fun h => hint (hk.trans h.2))]
  have hInt : (g.face (w.face i)).isInternal = true := hk.symm.trans hint
  rw [if_pos (c := (l.face i).isLocal = true ∧ (l.face i).isInternal = true) ⟨hli, hint⟩,
    if_pos (c := (g.face (w.face i)).isLocal = true ∧ (g.face (w.face i)).isInternal = true)
      ⟨al.faces _ hI, hInt⟩]
  obtain ⟨u0, u1, d0, d1⟩ := s.shaped.internal i hi hli hint
  have pickl : ∀ (id : ℤ) (x : ℝ), 0 ≤ id →
      (if 0 ≤ id ∧ l.isLocal id.toNat = true ∧ a = id.toNat then x else 0) =
        if a = id.toNat then x else 0 := by
    intro id x h
    refine if_congr ⟨fun k => k.2.2, fun k => ⟨h, by rw [← k]; exact hl, k⟩⟩ rfl rfl
  have pickg : ∀ (ID : ℤ) (x : ℝ), 0 ≤ ID → ID.toNat < g.numCells →
      (if 0 ≤ ID ∧ g.isLocal ID.toNat = true ∧ w.cell a = ID.toNat then x else 0) =
        if w.cell a = ID.toNat then x else 0 := by
    intro ID x h h'
    refine if_congr ⟨fun k => k.2.2, fun k => ⟨h, al.cells _ h', k⟩⟩ rfl rfl
  rw [pickl _ _ u0, pickl _ _ d0]
  cases hf : w.flip i with
  | false =>
    obtain ⟨eu, ed, eg⟩ := s.kept i hi hli hf
    rw [pickg _ _ (side_nonneg u0 eu) (side_lt s u0 u1 eu),
      pickg _ _ (side_nonneg d0 ed) (side_lt s d0 d1 ed), if_congr (owns_iff s ha u0 u1 eu) rfl rfl,
      if_congr (owns_iff s ha d0 d1 ed) rfl rfl,
      residual_seen s _ _ u0 u1 d0 d1 eu ed eg (junk i),
      C43_defined_partial g _ (junk i) (junk' (w.face i)) (hm _ hI hInt)]
  | true =>
    obtain ⟨-, ed, eu, eg⟩ := s.turned i hi hli hf
    rw [pickg _ _ (side_nonneg d0 eu) (side_lt s d0 d1 eu),
      pickg _ _ (side_nonneg u0 ed) (side_lt s u0 u1 ed), if_congr (owns_iff s ha d0 d1 eu) rfl rfl,
      if_congr (owns_iff s ha u0 u1 ed) rfl rfl,
      residual_seen s (l.face i) (swapFace (g.face (w.face i))) u0 u1 d0 d1 ed eu eg (junk i),
      C38_antisymmetric_partial g (g.face (w.face i)) (junk' (w.face i)) (junk i)
        (side_nonneg d0 eu) (side_nonneg u0 ed) (al.dist _ hI) (hm _ hI hInt) (hn i hi hli hf),
      neg_neg, add_comm]

/-- What a boundary face gives an owned cell, when it is no Dirichlet face. -/
theorem boundaryTerm_seen (al : Alone g) (s : Sees g l w)
    {a i : Nat} (ha : a < l.numCells)
    (hi : i < l.numFaces) (hli : (l.face i).isLocal = true)
    (hb : (l.face i).isInternal = false → (l.face i).bc ≠ .dirichlet) :
    boundaryTerm l i a = boundaryTerm g (w.face i) (w.cell a) := by
  have hI := s.faceLt i hi hli
  obtain ⟨hk, hbc⟩ := s.kind i hi hli
  unfold boundaryTerm
  dsimp only
  by_cases hint : (l.face i).isInternal = false ∧ (l.face i).bc ≠ .neumann
  swap
  · rw [if_neg (fun h => hint h.2), if_neg (fun h => hint ⟨hk.trans h.2.1, fun e => h.2.2
      (hbc.symm.trans e)⟩)]
  have hg : (g.face (w.face i)).isLocal = true ∧ (g.face (w.face i)).isInternal = false ∧
      (g.face (w.face i)).bc ≠ .neumann :=
    ⟨al.faces _ hI, hk.symm.trans hint.1, fun e => hint.2 (hbc.trans e)⟩
  rw [if_pos (c := (l.face i).isLocal = true ∧ (l.face i).isInternal = false ∧
    (l.face i).bc ≠ .neumann) ⟨hli, hint⟩, if_pos hg]
  obtain ⟨u0, u1, d0, d1⟩ := s.shaped.boundary i hi hli hint.1
  have hf : w.flip i = false := by
    cases hf : w.flip i with
    | false => rfl
    | true => rw [(s.turned i hi hli hf).1] at hint; exact absurd hint.1 (by decide)
  obtain ⟨eu, ed, eg⟩ := s.kept i hi hli hf
  have es : (l.face i).bc = .seepage := by
    have := hb hint.1
    have := hint.2
    cases h : (l.face i).bc <;> simp_all
  have e : boundaryFlux l (l.face i) = boundaryFlux g (g.face (w.face i)) := by
    unfold boundaryFlux
    rw [← hbc, es]
    dsimp only
    unfold richardsSeepageBCResidual
    rw [bnd_seen s u1 u0 eu, dq_seen s _ _ d0 d1 (by omega) eu ed eg, dists_seen s _ _ eg, eg,
      cell_seen s d0 d1 ed, s.pref]
  rw [e, if_congr (owns_iff s ha d0 d1 ed) rfl rfl]

theorem accum_seen (s : Sees g l w) (dtime : ℝ) {a : Nat} (ha : a < l.numCells) :
    accumulation l dtime a = accumulation g dtime (w.cell a) := by
  obtain ⟨h1, h2, h3, -⟩ := s.cells a ha
  unfold accumulation; rw [h1, h2, h3]

end

/-- C188, without Dirichlet faces: the residual of a cell is the same on every process. -/
theorem C188_residual_partial (g l : Ctx) (w : View) (al : Alone g) (s : Sees g l w)
    (hm : AllMobile g) (hn : NotDry g l w)
    (hb : ∀ i < l.numFaces, (l.face i).isLocal = true → (l.face i).isInternal = false →
      (l.face i).bc ≠ .dirichlet)
    (dtime : ℝ) (prev prev' junk junk' R : Nat → ℝ)
    (hp : ∀ a < l.numCells, prev' a = prev (w.cell a))
    (h : snesFunction g dtime prev junk = some R) :
    ∃ r, snesFunction l dtime prev' junk' = some r ∧
      ∀ a < l.numCells, l.isLocal a = true → r a = R (w.cell a) := by
  have hs : (boundaryLoop l (internalLoop l junk' (fun _ => 0))).isSome = true := by
    rw [boundaryLoop_isSome]
    intro i hi hli hint hne
    obtain ⟨u0, u1, d0, d1⟩ := s.shaped.boundary i hi hli hint
    have es : (l.face i).bc = .seepage := by
      have := hb i hi hli hint
      cases h : (l.face i).bc <;> simp_all
    unfold boundaryFlux
    rw [es]
    dsimp only
    unfold richardsSeepageBCResidual bndAt bndIndex
    rw [if_pos (by omega)]
    rfl
  obtain ⟨r0, hr0⟩ := Option.isSome_iff_exists.1 hs
  have hr : snesFunction l dtime prev' junk' = some (cellLoop l dtime prev' r0) := by
    unfold snesFunction; rw [hr0]; rfl
  refine ⟨_, hr, fun a ha hl => ?_⟩
  have hA := s.cellLt a ha
  rw [snesFunction_apply l dtime prev' junk' _ hr a, snesFunction_apply g dtime prev junk R h,
    if_pos ⟨ha, hl⟩, if_pos ⟨hA, al.cells _ hA⟩, accum_seen s dtime ha, hp a ha,
    (s.cells a ha).2.2.2.1,
    sum_seen s ha hl (fun i => internalTerm l junk' i a) (fun I => internalTerm g junk I (w.cell a)),
    sum_seen s ha hl (fun i => boundaryTerm l i a) (fun I => boundaryTerm g I (w.cell a))]
  · intro i _ hne
    by_contra hc
    exact hne (by unfold boundaryTerm; exact if_neg fun h => hc h.1)
  · intro I hI hne
    unfold boundaryTerm at hne
    dsimp only at hne
    split at hne
    · rename_i h1
      split at hne
      · rename_i h2
        have := al.shaped.boundary I hI h1.1 h1.2.1
        right; omega
      · exact absurd rfl hne
    · exact absurd rfl hne
  · intro i hi hli
    exact boundaryTerm_seen al s ha hi hli (hb i hi hli)
  · intro i _ hne
    by_contra hc
    exact hne (by unfold internalTerm; exact if_neg fun h => hc h.1)
  · intro I hI hne
    by_contra hc
    refine hne ?_
    unfold internalTerm
    dsimp only
    split
    · rw [if_neg (fun k => hc (Or.inl (by omega))), if_neg (fun k => hc (Or.inr (by omega))),
        add_zero]
    · rfl
  · intro i hi hli
    exact internalTerm_seen al s hm hn junk' junk ha hl hi hli

/-- C188, without Dirichlet faces: the accumulation of the last step. -/
theorem C188_previous (g l : Ctx) (w : View) (al : Alone g) (s : Sees g l w) (dtime : ℝ)
    (old old' : Nat → ℝ) (a : Nat) (ha : a < l.numCells) (hl : l.isLocal a = true) :
    fillAccum l dtime old' a = fillAccum g dtime old (w.cell a) := by
  have fill : ∀ (c : Ctx) (o : Nat → ℝ) (n j : Nat), j < n → c.isLocal j = true →
      forN n (fun i a => if !c.isLocal i then a else wr a i (accumulation c dtime i)) o j =
        accumulation c dtime j := by
    intro c o n
    induction n with
    | zero => intro j hj; omega
    | succ n ih =>
      intro j hj hl
      show (if !c.isLocal n then forN n _ o else wr (forN n _ o) n _) j = _
      by_cases e : j = n
      · subst e
        rw [hl]
        simp [wr]
      · have t := ih j (by omega) hl
        split
        · exact t
        · rw [wr, if_neg e]; exact t
  unfold fillAccum
  rw [fill l old' _ a ha hl, fill g old _ _ (s.cellLt a ha) (al.cells _ (s.cellLt a ha)),
    accum_seen s dtime ha]

section
variable {g l : Ctx} {w : View}

/-- What an internal face adds to the row of an owned cell. -/
theorem jacInternalTerm_seen (al : Alone g) (s : Sees g l w) (hm : AllMobile g) (hn : NotDry g l w)
    (hfl : Flowing g l w) (junk junk' : Nat → ℝ × ℝ) {a b i : Nat} (ha : a < l.numCells)
    (hb : b < l.numCells) (hl : l.isLocal a = true)
    (hi : i < l.numFaces) (hli : (l.face i).isLocal = true) :
    jacInternalTerm l junk i a b = jacInternalTerm g junk' (w.face i) (w.cell a) (w.cell b) := by
  have hI := s.faceLt i hi hli
  have hk := (s.kind i hi hli).1
  unfold jacInternalTerm
  dsimp only
  by_cases hint : (l.face i).isInternal = true
  swap
  · rw [if_neg (fun h => hint h.2), if_neg (fun h => hint (hk.trans h.2))]
  have hInt : (g.face (w.face i)).isInternal = true := hk.symm.trans hint
  rw [if_pos (c := (l.face i).isLocal = true ∧ (l.face i).isInternal = true) ⟨hli, hint⟩,
    if_pos (c := (g.face (w.face i)).isLocal = true ∧ (g.face (w.face i)).isInternal = true)
      ⟨al.faces _ hI, hInt⟩]
  obtain ⟨u0, u1, d0, d1⟩ := s.shaped.internal i hi hli hint
  have pickl : ∀ (id : ℤ) (x : ℝ), 0 ≤ id →
      (if 0 ≤ id ∧ l.isLocal id.toNat = true ∧ a = id.toNat then x else 0) =
        if a = id.toNat then x else 0 := by
    intro id x h
    refine if_congr ⟨fun k => k.2.2, fun k => ⟨h, by rw [← k]; exact hl, k⟩⟩ rfl rfl
  have pickg : ∀ (ID : ℤ) (x : ℝ), 0 ≤ ID → ID.toNat < g.numCells →
      (if 0 ≤ ID ∧ g.isLocal ID.toNat = true ∧ w.cell a = ID.toNat then x else 0) =
        if w.cell a = ID.toNat then x else 0 := by
    intro ID x h h'
    refine if_congr ⟨fun k => k.2.2, fun k => ⟨h, al.cells _ h', k⟩⟩ rfl rfl
  rw [pickl _ _ u0, pickl _ _ d0]
  cases hf : w.flip i with
  | false =>
    obtain ⟨eu, ed, eg⟩ := s.kept i hi hli hf
    have hj : richardsJacobian g (g.face (w.face i)) (junk i) =
        richardsJacobian g (g.face (w.face i)) (junk' (w.face i)) := by
      unfold richardsJacobian jacobian
      rw [if_pos (hm _ hI hInt), if_pos (hm _ hI hInt)]
    rw [pickg _ _ (side_nonneg u0 eu) (side_lt s u0 u1 eu),
      pickg _ _ (side_nonneg d0 ed) (side_lt s d0 d1 ed), jacobian_seen s _ _ u0 u1 d0 d1 eu ed eg
        (junk i), hj]
    simp only [owns_iff s ha u0 u1 eu, owns_iff s ha d0 d1 ed, owns_iff s hb u0 u1 eu,
      owns_iff s hb d0 d1 ed]
  | true =>
    obtain ⟨-, ed, eu, eg⟩ := s.turned i hi hli hf
    rw [pickg _ _ (side_nonneg d0 eu) (side_lt s d0 d1 eu),
      pickg _ _ (side_nonneg u0 ed) (side_lt s u0 u1 ed),
      jacobian_seen s (l.face i) (swapFace (g.face (w.face i))) u0 u1 d0 d1 ed eu eg (junk i),
      jacobian_swap g (g.face (w.face i)) (junk' (w.face i)) (junk i)
        (side_nonneg d0 eu) (side_nonneg u0 ed) (al.dist _ hI) (hm _ hI hInt) (hn i hi hli hf)
        (hfl i hi hli hf)]
    simp only [owns_iff s ha d0 d1 eu, owns_iff s ha u0 u1 ed, owns_iff s hb d0 d1 eu,
      owns_iff s hb u0 u1 ed, neg_neg]
    rw [add_comm]

/-- What a boundary face adds to the row of an owned cell, Dirichlet faces included. -/
theorem jacBoundaryTerm_seen (al : Alone g) (s : Sees g l w) (hm : BndMobile g)
    (junk junk' : Nat → ℝ) {a b i : Nat} (ha : a < l.numCells) (hb : b < l.numCells)
    (hl : l.isLocal a = true) (hi : i < l.numFaces) (hli : (l.face i).isLocal = true) :
    jacBoundaryTerm l junk i a b = jacBoundaryTerm g junk' (w.face i) (w.cell a) (w.cell b) := by
  have hI := s.faceLt i hi hli
  obtain ⟨hk, hbc⟩ := s.kind i hi hli
  unfold jacBoundaryTerm
  dsimp only
  by_cases hint : (l.face i).isInternal = false ∧ (l.face i).bc ≠ .neumann
  swap
  · rw [if_neg (fun h => hint h.2), if_neg (fun h => hint ⟨hk.trans h.2.1, fun e => h.2.2
      (hbc.symm.trans e)⟩)]
  have hg : (g.face (w.face i)).isLocal = true ∧ (g.face (w.face i)).isInternal = false ∧
      (g.face (w.face i)).bc ≠ .neumann :=
    ⟨al.faces _ hI, hk.symm.trans hint.1, fun e => hint.2 (hbc.trans e)⟩
  rw [if_pos (c := (l.face i).isLocal = true ∧ (l.face i).isInternal = false ∧
    (l.face i).bc ≠ .neumann) ⟨hli, hint⟩, if_pos hg]
  obtain ⟨u0, u1, d0, d1⟩ := s.shaped.boundary i hi hli hint.1
  have hf : w.flip i = false := by
    cases hf : w.flip i with
    | false => rfl
    | true => rw [(s.turned i hi hli hf).1] at hint; exact absurd hint.1 (by decide)
  obtain ⟨eu, ed, eg⟩ := s.kept i hi hli hf
  have mob := hm _ hI hg.2.1 hg.2.2
  have e : boundaryJac l (l.face i) (junk i) =
      boundaryJac g (g.face (w.face i)) (junk' (w.face i)) := by
    unfold boundaryJac
    rw [← hbc]
    unfold richardsBCJacobian richardsSeepageBCJacobian
    rw [bnd_seen s u1 u0 eu, dq_seen s _ _ d0 d1 (by omega) eu ed eg, dists_seen s _ _ eg, eg,
      cell_seen s d0 d1 ed, s.pref]
    have hin : bndAt g (bndIndex (g.face (w.face i)).up) =
        some (g.bnds (-(g.face (w.face i)).up - 1).toNat) := by
      have := al.shaped.boundary _ hI hg.1 hg.2.1
      unfold bndAt bndIndex
      rw [if_pos (by omega)]
    rw [hin]
    simp only [Option.map_some]
    cases (l.face i).bc
    · simp only [bcJacobian, mob, if_true]
    · rfl
    · simp only [seepageJacobian, mob, if_true]
  rw [e]
  refine if_congr ⟨fun k => ⟨side_nonneg d0 ed, al.cells _ (side_lt s d0 d1 ed),
    (owns_iff s ha d0 d1 ed).2 k.2.2.1, (owns_iff s hb d0 d1 ed).2 k.2.2.2⟩, fun k => ?_⟩ rfl rfl
  have := (owns_iff s ha d0 d1 ed).1 k.2.2.1
  exact ⟨d0, by rw [← this]; exact hl, this, (owns_iff s hb d0 d1 ed).1 k.2.2.2⟩

end

/-- C188: the rows of the Jacobian of the cells of a process, with boundary faces of all types. -/
theorem C188_jacobian_partial (g l : Ctx) (w : View) (al : Alone g) (s : Sees g l w)
    (hm : AllMobile g) (hbm : BndMobile g) (hn : NotDry g l w) (hfl : Flowing g l w)
    (dtime : ℝ) (junk junk' : Nat → ℝ × ℝ) (junkB junkB' : Nat → ℝ) (B B' : Nat → Nat → ℝ)
    (h : snesJacobian g dtime junk junkB = some B) (h' : snesJacobian l dtime junk' junkB' = some B')
    (a b : Nat) (ha : a < l.numCells) (hb : b < l.numCells) (hl : l.isLocal a = true) :
    B' a b = B (w.cell a) (w.cell b) := by
  have hA := s.cellLt a ha
  have hab : (a = b ∧ a < l.numCells ∧ l.isLocal a = true) ↔
      (w.cell a = w.cell b ∧ w.cell a < g.numCells ∧ g.isLocal (w.cell a) = true) :=
    ⟨fun k => ⟨by rw [k.1], hA, al.cells _ hA⟩, fun k => ⟨s.cellInj a ha b hb k.1, ha, hl⟩⟩
  have hacc : jacobianAccumulation l dtime a = jacobianAccumulation g dtime (w.cell a) := by
    obtain ⟨h1, h2, h3, -⟩ := s.cells a ha
    unfold jacobianAccumulation; rw [h1, h2, h3]
  rw [snesJacobian_apply l dtime junk' junkB' B' h', snesJacobian_apply g dtime junk junkB B h,
    if_congr hab rfl rfl, hacc,
    sum_seen s ha hl (fun i => jacInternalTerm l junk' i a b)
      (fun I => jacInternalTerm g junk I (w.cell a) (w.cell b)),
    sum_seen s ha hl (fun i => jacBoundaryTerm l junkB' i a b)
      (fun I => jacBoundaryTerm g junkB I (w.cell a) (w.cell b))]
  · intro i _ hne
    by_contra hc
    exact hne (by unfold jacBoundaryTerm; exact if_neg fun h => hc h.1)
  · intro I hI hne
    by_contra hc
    refine hne ?_
    unfold jacBoundaryTerm
    dsimp only
    split
    · exact if_neg (fun k => hc (Or.inr (by omega)))
    · rfl
  · intro i hi hli
    exact jacBoundaryTerm_seen al s hbm junkB' junkB ha hb hl hi hli
  · intro i _ hne
    by_contra hc
    exact hne (by unfold jacInternalTerm; exact if_neg fun h => hc h.1)
  · intro I hI hne
    by_contra hc
    refine hne ?_
    unfold jacInternalTerm
    dsimp only
    split
    · rw [if_neg (fun k => hc (Or.inl (by omega))), if_neg (fun k => hc (Or.inr (by omega))),
        add_zero]
    · rfl
  · intro i hi hli
    exact jacInternalTerm_seen al s hm hn hfl junk' junk ha hb hl hi hli

/-! ### The residual with Dirichlet faces depends on the numbering -/

namespace ViewWitness

def bside (p : ℝ) : Side := ⟨p, 1, 1, 1, 1, 0, 0, 0, 0⟩

/-- One cell with a Dirichlet face and two closed ones. -/
def g : Ctx :=
  { numCells := 1, numFaces := 3, numBnd := 3
    face := fun i => ⟨-(i:ℤ) - 1, 0, true, false, if i = 0 then .dirichlet else .neumann,
      ⟨1, 1, ⟨1, 0, 0⟩, 1⟩⟩
    isLocal := fun _ => true, vol := fun _ => 1, por := fun _ => 1
    K0 := fun _ => ⟨1, 1, 1⟩, source := fun _ => 0, Sr := fun _ => 0
    cells := fun _ => bside 1
    bnds := fun b => bside (b:ℝ), gravity := ⟨0, 0, 0⟩, Pref := 0 }

def turn (i : Nat) : Nat := if i = 1 then 2 else if i = 2 then 1 else i

/-- The same with the two closed faces listed in the other order. -/
def l : Ctx := { g with bnds := fun b => bside (turn b : ℝ) }

def w : View := ⟨id, turn, turn, fun _ => false⟩

theorem shaped : Shaped g := by
  constructor
  · intro i _ _ h; exact absurd h (by simp [g])
  · intro i hi _ _
    have : i < 3 := hi
    simp only [g]
    omega

theorem alone : Alone g := by
  refine ⟨shaped, fun _ _ => rfl, fun _ _ => rfl, fun i _ => ?_⟩
  simp only [g]; norm_num

theorem turn_lt {i : Nat} (h : i < 3) : turn i < 3 := by unfold turn; split_ifs <;> omega

theorem sees : Sees g l w where
  shaped := ⟨shaped.internal, shaped.boundary⟩
  cellLt := fun a h => h
  cellInj := fun _ _ _ _ h => h
  cells := fun _ _ => ⟨rfl, rfl, rfl, rfl, rfl⟩
  bndLt := fun _ h => turn_lt h
  bnds := fun _ _ => rfl
  gravity := rfl
  pref := rfl
  faceLt := fun _ h _ => turn_lt h
  faceInj := by
    intro i hi j hj _ _ h
    have : ∀ i < 3, ∀ j < 3, turn i = turn j → i = j := by decide
    exact this i hi j hj h
  kind := by
    intro i hi _
    refine ⟨rfl, ?_⟩
    have hi : i < 3 := hi
    show (if i = 0 then Bc.dirichlet else .neumann) = if turn i = 0 then Bc.dirichlet else .neumann
    interval_cases i <;> rfl
  kept := by
    intro i hi _ _
    have e : (-(-(i:ℤ) - 1) - 1).toNat = i := by omega
    refine ⟨?_, ?_, rfl⟩
    · show -(turn i : ℤ) - 1 = w.side (-(i:ℤ) - 1)
      rw [view_side_bnd (by omega), e]
      rfl
    · show (0:ℤ) = w.side 0
      rfl
  turned := fun _ _ _ h => absurd h (by simp [w])
  cover := by
    intro a _ _ I hI _
    refine ⟨turn I, turn_lt hI, rfl, ?_⟩
    have hI : I < 3 := hI
    show turn (turn I) = I
    interval_cases I <;> rfl

end ViewWitness

/-- C188 fails for Dirichlet faces: which boundary pressure the residual of a cell is computed with
depends on the order in which a process numbers its boundary faces, although everything else,
the Jacobian included, is the same. -/
theorem C188_dirichlet : ∃ (g l : Ctx) (w : View), Alone g ∧ Sees g l w ∧ AllMobile g ∧
    BndMobile g ∧ NotDry g l w ∧ Flowing g l w ∧
    ∃ R r, snesFunction g 1 (fun _ => 1) (fun _ => 0) = some R ∧
      snesFunction l 1 (fun _ => 1) (fun _ => 0) = some r ∧ r 0 ≠ R (w.cell 0) := by
  refine ⟨ViewWitness.g, ViewWitness.l, ViewWitness.w, ViewWitness.alone, ViewWitness.sees,
    fun _ _ h => absurd h (by simp [ViewWitness.g]),
    fun i _ _ _ => Or.inl (by norm_num [ViewWitness.g, ViewWitness.bside]),
    fun _ _ _ h => absurd h (by simp [ViewWitness.w]),
    fun _ _ _ h => absurd h (by simp [ViewWitness.w]), ?_⟩
  have flux : ∀ c : Ctx, c = { ViewWitness.g with bnds := c.bnds } → ∀ p, c.bnds 2 = ViewWitness.bside p →
      1 ≤ p → ∃ R, snesFunction c 1 (fun _ => 1) (fun _ => 0) = some R ∧ R 0 = -((p - 1)/2) := by
    intro c hc p hp h1
    have hn : c.numFaces = 3 := by rw [hc]; rfl
    have hface : ∀ i, c.face i = ViewWitness.g.face i := by intro i; rw [hc]
    have hcell : c.cells 0 = ViewWitness.bside 1 := by rw [hc]; rfl
    have hres : boundaryFlux c (c.face 0) = some ((p - 1)/2) := by
      have hat : bndAt c (bndIndexResidual (c.face 0).up) = some (ViewWitness.bside p) := by
        have h2 : bndIndexResidual (c.face 0).up = 2 := by rw [hface]; rfl
        have h3 : c.numBnd = 3 := by rw [hc]; rfl
        unfold bndAt
        rw [h2, h3, if_pos (by norm_num), ← hp]
        rfl
      have hbc : (c.face 0).bc = .dirichlet := by rw [hface]; rfl
      unfold boundaryFlux
      rw [hbc]
      dsimp only
      unfold richardsBCResidual
      rw [hat]
      have hmob : mobile (ViewWitness.bside p) (ViewWitness.bside 1) :=
        Or.inl (by norm_num [ViewWitness.bside])
      have hz : (c.face 0).dn.toNat = 0 := by rw [hface]; rfl
      rw [Option.map_some, hz, hcell, residual_mobile hmob]
      have hDq : faceDq c (c.face 0) = 1/2 := by
        rw [hface, hc]
        norm_num [faceDq, upDownPerm, directional, faceCoefficient, ViewWitness.g]
      have hd : dists c (c.face 0) = (0, 1/2) := by
        rw [hface, hc]
        norm_num [dists, calculateDistances, dot, ViewWitness.g]
      have harea : (c.face 0).geom.area = 1 := by rw [hface]; rfl
      have hden : denAve (1/2) (ViewWitness.bside p) (ViewWitness.bside 1) = 1 := by
        norm_num [denAve, upweight, ViewWitness.bside]
      have hphi : dphi 0 (1/2) (ViewWitness.bside p) (ViewWitness.bside 1) = p - 1 := by
        unfold dphi; rw [hden]; simp [ViewWitness.bside]
      rw [hDq, hd, harea]
      dsimp only
      rw [hden, hphi]
      norm_num [ViewWitness.bside]
      ring
    have hs : (boundaryLoop c (internalLoop c (fun _ => 0) (fun _ => 0))).isSome = true := by
      rw [boundaryLoop_isSome]
      intro i hi _ _ hbc
      rw [hface] at hbc
      have : i = 0 := by
        by_contra h0
        exact hbc (by simp [ViewWitness.g, h0])
      rw [this, hres]
      rfl
    obtain ⟨r0, hr0⟩ := Option.isSome_iff_exists.1 hs
    have hr : snesFunction c 1 (fun _ => 1) (fun _ => 0) = some (cellLoop c 1 (fun _ => 1) r0) := by
      unfold snesFunction; rw [hr0]; rfl
    refine ⟨_, hr, ?_⟩
    rw [snesFunction_apply _ _ _ _ _ hr, hn]
    have hacc : accumulation c 1 0 = 1 := by
      unfold accumulation
      rw [hcell, hc]
      norm_num [ViewWitness.g, ViewWitness.bside]
    have hsrc : c.source 0 = 0 := by rw [hc]; rfl
    have hloc : 0 < c.numCells ∧ c.isLocal 0 = true := by rw [hc]; exact ⟨Nat.one_pos, rfl⟩
    rw [if_pos hloc, hacc, hsrc]
    have hint : ∀ i, internalTerm c (fun _ => 0) i 0 = 0 := by
      intro i
      unfold internalTerm
      rw [hface]
      simp [ViewWitness.g]
    simp only [hint, sum_range_succ, sum_range_zero]
    have hb0 : boundaryTerm c 0 0 = -((p - 1)/2) := by
      unfold boundaryTerm
      dsimp only
      rw [hres, hface]
      simp [ViewWitness.g]
    have hb1 : boundaryTerm c 1 0 = 0 := by unfold boundaryTerm; rw [hface]; simp [ViewWitness.g]
    have hb2 : boundaryTerm c 2 0 = 0 := by unfold boundaryTerm; rw [hface]; simp [ViewWitness.g]
    rw [hb0, hb1, hb2]
    ring
  obtain ⟨R, hR, eR⟩ := flux ViewWitness.g rfl 2 (by simp [ViewWitness.g]) (by norm_num)
  obtain ⟨r, hr, er⟩ := flux ViewWitness.l rfl 1
    (by simp [ViewWitness.l, ViewWitness.turn]) (by norm_num)
  refine ⟨R, r, hR, hr, ?_⟩
  show r 0 ≠ R 0
  rw [eR, er]
  norm_num

/-! ### A mesh of two cells on two processes -/

namespace SplitWitness

/-- Two cells with a face between them and a seepage face at the second. -/
def g : Ctx :=
  { numCells := 2, numFaces := 2, numBnd := 1
    face := fun i => if i = 0 then ⟨0, 1, true, true, .neumann, ⟨1, 2, ⟨1, 0, 0⟩, 1⟩⟩
      else ⟨-1, 1, true, false, .seepage, ⟨0, 1, ⟨1, 0, 0⟩, 1⟩⟩
    isLocal := fun _ => true, vol := fun _ => 1, por := fun _ => 1
    K0 := fun _ => ⟨1, 1, 1⟩, source := fun _ => 0, Sr := fun _ => 0
    cells := fun i => ViewWitness.bside (if i = 0 then 2 else 1)
    bnds := fun _ => ViewWitness.bside 0, gravity := ⟨0, 0, 0⟩, Pref := 0 }

/-- The process of the second cell: it calls it cell 0, has the first as a ghost, lists the seepage
face first and names the sides of the other face in the other order. -/
def l : Ctx :=
  { g with
    face := fun i => if i = 0 then ⟨-1, 0, true, false, .seepage, ⟨0, 1, ⟨1, 0, 0⟩, 1⟩⟩
      else ⟨0, 1, true, true, .neumann, ⟨2, 1, ⟨-1, 0, 0⟩, 1⟩⟩
    isLocal := fun i => i == 0
    cells := fun i => ViewWitness.bside (if i = 0 then 1 else 2) }

def w : View := ⟨fun i => 1 - i, id, fun i => 1 - i, fun i => i == 1⟩

theorem alone : Alone g := by
  refine ⟨⟨?_, ?_⟩, ?_, fun _ _ => rfl, ?_⟩
  · intro i hi _ h
    have hi : i < 2 := hi
    interval_cases i <;> simp [g] at h ⊢
  · intro i hi _ h
    have hi : i < 2 := hi
    interval_cases i <;> simp [g] at h ⊢
  · intro i hi
    have hi : i < 2 := hi
    interval_cases i <;> rfl
  · intro i hi
    have hi : i < 2 := hi
    interval_cases i <;> norm_num [g]

theorem sees : Sees g l w where
  shaped := by
    refine ⟨?_, ?_⟩
    · intro i hi _ h
      have hi : i < 2 := hi
      interval_cases i <;> simp [l, g] at h ⊢
    · intro i hi _ h
      have hi : i < 2 := hi
      interval_cases i <;> simp [l, g] at h ⊢
  cellLt := by intro a _; show 1 - a < 2; omega
  cellInj := by
    intro a ha b hb h
    have ha : a < 2 := ha
    have hb : b < 2 := hb
    have h : 1 - a = 1 - b := h
    omega
  cells := by
    intro a ha
    have ha : a < 2 := ha
    interval_cases a <;> simp [l, g, w]
  bndLt := fun _ h => h
  bnds := fun _ _ => rfl
  gravity := rfl
  pref := rfl
  faceLt := by intro a _ _; show 1 - a < 2; omega
  faceInj := by
    intro a ha b hb _ _ h
    have ha : a < 2 := ha
    have hb : b < 2 := hb
    have h : 1 - a = 1 - b := h
    omega
  kind := by
    intro a ha _
    have ha : a < 2 := ha
    interval_cases a <;> simp [l, g, w]
  kept := by
    intro a ha _ h
    have ha : a < 2 := ha
    interval_cases a
    · simp [l, g, w, View.side]
    · simp [w] at h
  turned := by
    intro a ha _ h
    have ha : a < 2 := ha
    interval_cases a
    · simp [w] at h
    · simp [l, g, w, View.side, swapGeom]
  cover := by
    intro a _ _ I hI _
    have hI : I < 2 := hI
    refine ⟨1 - I, by show 1 - I < 2; omega, ?_, by show 1 - (1 - I) = I; omega⟩
    interval_cases I <;> rfl

end SplitWitness

/-- All hypotheses of C188 are met by this mesh, and the second cell has a flux on both. -/
example : Alone SplitWitness.g ∧ Sees SplitWitness.g SplitWitness.l SplitWitness.w ∧
    AllMobile SplitWitness.g ∧ BndMobile SplitWitness.g ∧
    NotDry SplitWitness.g SplitWitness.l SplitWitness.w ∧
    Flowing SplitWitness.g SplitWitness.l SplitWitness.w ∧
    (∃ R, snesFunction SplitWitness.g 1 (fun _ => 0) (fun _ => 0) = some R) ∧
    ∃ B B', snesJacobian SplitWitness.g 1 (fun _ => 0) (fun _ => 0) = some B ∧
      snesJacobian SplitWitness.l 1 (fun _ => 0) (fun _ => 0) = some B' := by
  refine ⟨SplitWitness.alone, SplitWitness.sees, ?_, ?_, ?_, ?_, ⟨_, rfl⟩, _, _, rfl, rfl⟩
  · intro i _ _; exact Or.inl (by norm_num [SplitWitness.g, ViewWitness.bside])
  · intro i _ _ _; exact Or.inl (by norm_num [SplitWitness.g, ViewWitness.bside])
  · intro i _ _ _ h; norm_num [SplitWitness.g, ViewWitness.bside] at h
  · intro i hi _ h
    have hi : i < 2 := hi
    interval_cases i
    · simp [SplitWitness.w] at h
    · norm_num [SplitWitness.g, SplitWitness.w, ViewWitness.bside, dphi, denAve, upweight, dists,
        calculateDistances, dot]

end

end TDy.Fvtpf.Props
