import Verif.Proofs.State
import Verif.Proofs.CurveTables
import Mathlib.Data.List.Nodup
import Mathlib.Data.List.NodupEquivFin

/-! # Lemmas about the states of boundary faces -/

namespace TDy.State.Proofs

open TDy.Curves TDy.Curves.Spec TDy.Curves.Proofs TDy.Eos TDy.State TDy.State.Spec

noncomputable section

theorem bnd_eq {f : BFace} {c b : Nat} (h : IsBoundary f c b) : f.cell = c ∧ f.bnd = b := by
  obtain ⟨-, ⟨hu, hd⟩ | ⟨hd, hu⟩⟩ := h
  · simp only [BFace.cell, BFace.bnd, hu, hd]
    rw [if_pos (by omega), if_pos (by omega)]
    omega
  · simp only [BFace.cell, BFace.bnd, hu, hd]
    rw [if_neg (by omega), if_neg (by omega)]
    omega

/-- The lookup tables of an object in use are those of its points. -/
theorem reached_maps {o : Options} {nc : Nat} {cc : CC} (hr : Reached o nc cc) :
    MapsOk cc.sat ∧ MapsOk cc.kr := by
  have step : ∀ s, MapsOk s → MapsOk (withMaps s) := by
    intro s h
    obtain ⟨e, e0, e1⟩ := withMaps_maps h
    right; rw [e, e0, e1]
  induction hr with
  | @setup cc h =>
    unfold initCurves at h
    dsimp only at h
    split at h
    · injection h with h; subst h
      exact ⟨Or.inl rfl, Or.inl rfl⟩
    · split at h
      · exact absurd h (by simp)
      · injection h with h; subst h
        exact ⟨Or.inl rfl, Or.inl rfl⟩
  | eval _ ih => exact ⟨step _ ih.1, step _ ih.2⟩

/-- Every cell is found in the table of the second type. -/
theorem lookup_cell {mo : Nat → Bool} {s : Model2} {nc : Nat} (h0 : s.t0.num = 0) (h1 : s.t1.num = nc)
    (hp : ∀ i, s.t1.points i = i) (c : Nat) (hc : c < nc) :
    lookup mo (buildMap s.t0, buildMap s.t1) c = .inSecond c := by
  apply lookup_second
  · rintro ⟨i, hi, -⟩; omega
  · intro h; exact absurd h0 h
  · exact ⟨by omega, hp c, fun i' h _ => by rw [hp]; omega⟩

theorem forN_some' {α : Type*} (n : Nat) (f : Nat → α) (a : Nat → α)
    (body : Nat → (Nat → α) → Option (Nat → α))
    (hb : ∀ i, i < n → ∀ o, body i o = some (wr o i (f i))) :
    ∃ o, forN n (fun i (o : Option (Nat → α)) => o.bind (body i)) (some a) = some o ∧
      ∀ i, i < n → o i = f i := by
  obtain ⟨o, e, h, -⟩ := forN_some n (fun i => some (f i)) a body hb
  exact ⟨o, e, fun i hi => h i hi⟩

theorem saturation_points {o : Options} {nc : Nat} {cc : CC} (hr : Reached o nc cc) (mo : Nat → Bool)
    (n : Nat) (points : Nat → Nat) (hp : ∀ i < n, points i < nc) (Sr Pc : Nat → ℝ) (out : Nat → Sat) :
    ∃ s, saturationOnPoints mo cc.sat n points Sr Pc out = some (withMaps cc.sat, s) ∧
      ∀ i < n, s i = vanGenuchten o.m o.alpha (Sr i) (Pc i) := by
  obtain ⟨h0, -, h1, -, hpt, -, hq, -⟩ := reached_tables hr
  obtain ⟨em, e0, e1⟩ := withMaps_maps (reached_maps hr).1
  unfold saturationOnPoints
  simp only [em, e0, e1]
  obtain ⟨s, es, hs⟩ := forN_some' n (fun i => vanGenuchten o.m o.alpha (Sr i) (Pc i)) out
    (fun i o' => match lookup mo (buildMap cc.sat.t0, buildMap cc.sat.t1) (points i) with
        | .inFirst j => some (wr o' i (evalGardner cc.sat.t0.params j (Sr i) (Pc i)))
        | .inSecond j => some (wr o' i (evalVG cc.sat.t1.params j (Sr i) (Pc i)))
        | .unregistered => some o'
        | .ub => none) (by
      intro i hi o'
      simp only [lookup_cell h0 h1 hpt (points i) (hp i hi)]
      unfold evalVG
      rw [hq, (vgParams_apply o nc _ (hp i hi)).1, (vgParams_apply o nc _ (hp i hi)).2])
  exact ⟨s, congrArg (Option.map fun o => (withMaps cc.sat, o)) es, hs⟩

theorem relPerm_points {o : Options} {nc : Nat} {cc : CC} (hr : Reached o nc cc) (mo : Nat → Bool)
    (n : Nat) (points : Nat → Nat) (hp : ∀ i < n, points i < nc) (Se : Nat → ℝ) (out : Nat → Kr)
    (k : Fin 4 → ℝ) (hk : smoothingCoeffs o.m o.x0 o.x1 o.x2 o.dx = some k) :
    ∃ s, relPermOnPoints mo cc.kr n points Se out = some (withMaps cc.kr, s) ∧
      ∀ i < n, s i = mualem o.m o.x0 o.x1 o.dx k (Se i) := by
  obtain ⟨-, h0, -, h1, -, hpt, -, hq⟩ := reached_tables hr
  obtain ⟨em, e0, e1⟩ := withMaps_maps (reached_maps hr).2
  unfold relPermOnPoints
  simp only [em, e0, e1]
  obtain ⟨s, es, hs⟩ := forN_some' n (fun i => mualem o.m o.x0 o.x1 o.dx k (Se i)) out
    (fun i o' => match lookup mo (buildMap cc.kr.t0, buildMap cc.kr.t1) (points i) with
        | .inFirst j => some (wr o' i (evalIrmay cc.kr.t0.params j (Se i)))
        | .inSecond j => some (wr o' i (evalMualem cc.kr.t1.params j (Se i)))
        | .unregistered => some o'
        | .ub => none) (by
      intro i hi o'
      have hc := hp i hi
      obtain ⟨k', hk', hq⟩ := hq (by omega)
      have : k' = k := by rw [hk] at hk'; exact (Option.some.inj hk').symm
      subst this
      simp only [lookup_cell h0 h1 hpt (points i) hc]
      unfold evalMualem
      obtain ⟨a0, a1, a2, a4, ak⟩ := mualemParams_apply o k' nc _ hc
      rw [hq, a0, a1, a2, a4]
      congr 3
      funext l
      exact ak l)
  exact ⟨s, congrArg (Option.map fun o => (withMaps cc.kr, o)) es, hs⟩

/-- The boundary values after the loop over the faces. -/
theorem setBoundary_done {nFaces nCells nBnd : Nat} {face : Nat → BFace}
    (hn : Numbered nFaces nCells nBnd face) (given : Option (Nat → ℝ)) (cellValue : Nat → ℝ)
    (a : (Nat → ℝ) × (Nat → ℝ)) :
    ∃ a', setBoundary nFaces nCells nBnd face given cellValue a = .ok a' ∧
      (∀ i < nFaces, ∀ c b, IsBoundary (face i) c b →
        a'.1 b = (given.map (· i)).getD (cellValue c) ∧
        a'.2 (nCells + b) = (given.map (· i)).getD (cellValue c)) ∧
      ∀ j < nCells, a'.2 j = a.2 j := by
  suffices h : ∀ m ≤ nFaces, ∃ a', setBoundary m nCells nBnd face given cellValue a = .ok a' ∧
      (∀ i < m, ∀ c b, IsBoundary (face i) c b →
        a'.1 b = (given.map (· i)).getD (cellValue c) ∧
        a'.2 (nCells + b) = (given.map (· i)).getD (cellValue c)) ∧
      ∀ j < nCells, a'.2 j = a.2 j from h nFaces le_rfl
  intro m
  induction m with
  | zero => exact fun _ => ⟨a, rfl, fun i hi => by omega, fun _ _ => rfl⟩
  | succ m ih =>
    intro hm
    obtain ⟨a', e, h1, h2⟩ := ih (by omega)
    have e' : setBoundary (m + 1) nCells nBnd face given cellValue a =
        (if (face m).internal then Res.ok a'
        else if (face m).bnd < 0 ∨ (nBnd : ℤ) ≤ (face m).bnd then .ub
        else
          let v := boundaryValue given cellValue m (face m).cell
          .ok (wr a'.1 (face m).bnd.toNat v, wr a'.2 ((face m).bnd.toNat + nCells) v)) := by
      unfold setBoundary at e ⊢
      simp only [forN]; rw [e]; rfl
    rw [e']
    cases hf : (face m).internal
    · obtain ⟨c, hc, b, hb, hib⟩ := hn.ids m (by omega) hf
      obtain ⟨ec, eb⟩ := bnd_eq hib
      rw [if_neg (by simp), if_neg (by omega)]
      have ev : boundaryValue given cellValue m (face m).cell
          = (given.map (· m)).getD (cellValue c) := by
        unfold boundaryValue; cases given <;> simp [ec]
      simp only [ev, eb, Int.toNat_natCast]
      refine ⟨_, rfl, ?_, ?_⟩
      · intro i hi c' b' hib'
        by_cases hbb : b' = b
        · subst hbb
          have : i = m := hn.inj i (by omega) m (by omega) c' c b' hib' hib
          subst this
          have : c' = c := by
            have := (bnd_eq hib').1; omega
          subst this
          dsimp only
          rw [wr_same, Nat.add_comm nCells, wr_same]
          exact ⟨rfl, rfl⟩
        · have : i ≠ m := by
            rintro rfl
            have := (bnd_eq hib').2; omega
          dsimp only
          rw [wr_other _ _ hbb, wr_other _ _ (by omega)]
          exact h1 i (by omega) c' b' hib'
      · intro j hj
        dsimp only
        rw [wr_other _ _ (by omega)]
        exact h2 j hj
    · refine ⟨a', by simp, ?_, h2⟩
      intro i hi c b hib
      have : i ≠ m := by rintro rfl; rw [hib.1] at hf; exact absurd hf (by simp)
      exact h1 i (by omega) c b hib

/-- The indices of the boundary faces. -/
def bndIdx (nFaces : Nat) (face : Nat → BFace) : List Nat :=
  (List.range nFaces).filter fun i => !(face i).internal

theorem boundaryFaces_eq (nFaces : Nat) (face : Nat → BFace) :
    boundaryFaces nFaces face = (bndIdx nFaces face).map face := by
  unfold boundaryFaces bndIdx
  rw [List.filter_map]; rfl

theorem mem_bndIdx {nFaces : Nat} {face : Nat → BFace} {i : Nat} :
    i ∈ bndIdx nFaces face ↔ i < nFaces ∧ (face i).internal = false := by
  simp [bndIdx]

/-- The boundary faces of a numbered mesh: there are at most `nBnd`, each is a boundary face, and their
numbers differ. -/
theorem boundary_list {nFaces nCells nBnd : Nat} {face : Nat → BFace}
    (hn : Numbered nFaces nCells nBnd face) :
    let l := boundaryFaces nFaces face
    l.length ≤ nBnd ∧
    (∀ i < l.length, ∃ c < nCells, ∃ b < nBnd, (nth l i).cell = c ∧ (nth l i).bnd = b) ∧
    (∀ f ∈ l, ¬ (f.bnd < 0 ∨ (nBnd:ℤ) ≤ f.bnd)) ∧
    (∀ i j, i < l.length → j < l.length → (nth l i).bnd.toNat = (nth l j).bnd.toNat → i = j) ∧
    ∀ i < nFaces, ∀ c b, IsBoundary (face i) c b → ∃ k < l.length, (nth l k).cell = c ∧ (nth l k).bnd = b := by
  intro l
  have el : l = (bndIdx nFaces face).map face := boundaryFaces_eq _ _
  have hlen : l.length = (bndIdx nFaces face).length := by rw [el, List.length_map]
  have hnd : (bndIdx nFaces face).Nodup := List.Nodup.filter _ List.nodup_range
  have hnth : ∀ i (h : i < (bndIdx nFaces face).length), nth l i = face ((bndIdx nFaces face)[i]) := by
    intro i h
    simp [nth, el, h]
  have hb : ∀ i ∈ bndIdx nFaces face, ∃ c < nCells, ∃ b < nBnd, IsBoundary (face i) c b := by
    intro i hi
    obtain ⟨h1, h2⟩ := mem_bndIdx.1 hi
    exact hn.ids i h1 h2
  have hinj : ∀ i ∈ bndIdx nFaces face, ∀ j ∈ bndIdx nFaces face,
      (face i).bnd.toNat = (face j).bnd.toNat → i = j := by
    intro i hi j hj h
    obtain ⟨c, -, b, -, h1⟩ := hb i hi
    obtain ⟨c', -, b', -, h2⟩ := hb j hj
    rw [(bnd_eq h1).2, (bnd_eq h2).2] at h
    simp only [Int.toNat_natCast] at h
    subst h
    exact hn.inj i (mem_bndIdx.1 hi).1 j (mem_bndIdx.1 hj).1 c c' b h1 h2
  refine ⟨?_, ?_, ?_, ?_, ?_⟩
  · rw [hlen]
    have h1 : ((bndIdx nFaces face).map fun i => (face i).bnd.toNat).Nodup :=
      List.Nodup.map_on hinj hnd
    have h2 : ((bndIdx nFaces face).map fun i => (face i).bnd.toNat) ⊆ List.range nBnd := by
      intro y hy
      obtain ⟨i, hi, rfl⟩ := List.mem_map.1 hy
      obtain ⟨c, -, b, hb, h1⟩ := hb i hi
      rw [(bnd_eq h1).2]
      simpa using hb
    have := (h1.subperm h2).length_le
    simpa using this
  · intro i hi
    rw [hnth i (by omega)]
    obtain ⟨c, hc, b, hb, h1⟩ := hb _ (List.getElem_mem (by omega : i < (bndIdx nFaces face).length))
    exact ⟨c, hc, b, hb, (bnd_eq h1).1, (bnd_eq h1).2⟩
  · intro f hf
    rw [el] at hf
    obtain ⟨i, hi, rfl⟩ := List.mem_map.1 hf
    obtain ⟨c, -, b, hb, h1⟩ := hb i hi
    rw [(bnd_eq h1).2]; omega
  · intro i j hi hj h
    rw [hnth i (by omega), hnth j (by omega)] at h
    have := hinj _ (List.getElem_mem _) _ (List.getElem_mem _) h
    exact (List.Nodup.getElem_inj_iff hnd).1 this
  · intro i hi c b h
    have hm : i ∈ bndIdx nFaces face := mem_bndIdx.2 ⟨hi, h.1⟩
    obtain ⟨k, hk, e⟩ := List.getElem_of_mem hm
    refine ⟨k, by omega, ?_⟩
    rw [hnth k hk, e]
    exact bnd_eq h

/-- The loop that stores the values. -/
theorem store_loop (n : Nat) (p : Nat → Nat) (v : Nat → Sat) (w : Nat → Kr) (b : Bnd)
    (hinj : ∀ i j, i < n → j < n → p i = p j → i = j) :
    let r := forN n (fun i (b : Bnd) =>
      ({ b with sat := wr b.sat (p i) (v i), kr := wr b.kr (p i) (w i) } : Bnd)) b
    r.P = b.P ∧ r.rho = b.rho ∧ r.vis = b.vis ∧ ∀ i < n, r.sat (p i) = v i ∧ r.kr (p i) = w i := by
  intro r
  have h : ∀ m ≤ n, let r := forN m (fun i (b : Bnd) =>
      ({ b with sat := wr b.sat (p i) (v i), kr := wr b.kr (p i) (w i) } : Bnd)) b
      r.P = b.P ∧ r.rho = b.rho ∧ r.vis = b.vis ∧
      r.sat = forN m (fun i a => wr a (p i) (v i)) b.sat ∧
      r.kr = forN m (fun i a => wr a (p i) (w i)) b.kr := by
    intro m
    induction m with
    | zero => exact fun _ => ⟨rfl, rfl, rfl, rfl, rfl⟩
    | succ m ih =>
      intro hm
      obtain ⟨h1, h2, h3, h4, h5⟩ := ih (by omega)
      refine ⟨h1, h2, h3, ?_, ?_⟩
      · simp only [forN]; rw [h4]
      · simp only [forN]; rw [h5]
  obtain ⟨h1, h2, h3, h4, h5⟩ := h n le_rfl
  refine ⟨h1, h2, h3, fun i hi => ⟨?_, ?_⟩⟩
  · show r.sat (p i) = _
    rw [h4]; exact forN_scatter n p v b.sat hinj i hi
  · show r.kr (p i) = _
    rw [h5]; exact forN_scatter n p w b.kr hinj i hi

/-- The update of the boundary states. -/
theorem boundary_done {o : Options} {nc : Nat} {cc : CC} (hr : Reached o nc cc) (k : Fin 4 → ℝ)
    (hk : smoothingCoeffs o.m o.x0 o.x1 o.x2 o.dx = some k) (mo : Nat → Bool) (x : Ctx)
    {nFaces nBnd : Nat} {face : Nat → BFace} (hn : Numbered nFaces nc nBnd face)
    (junkS : Nat → Sat) (junkK : Nat → Kr) (b : Bnd) :
    ∃ b', updateBoundaryState mo cc x nFaces nBnd face junkS junkK b
        = some (⟨withMaps cc.sat, withMaps cc.kr⟩, b') ∧
      b'.P = b.P ∧ b'.rho = b.rho ∧ b'.vis = b.vis ∧
      ∀ i < nFaces, ∀ c bi, IsBoundary (face i) c bi →
        b'.sat bi = vanGenuchten o.m o.alpha (x.Sr c) (x.Pref - b.P bi) ∧
        b'.kr bi = ⟨(mualem o.m o.x0 o.x1 o.dx k (((b'.sat bi).S - x.Sr c)/(1 - x.Sr c))).k,
          (mualem o.m o.x0 o.x1 o.dx k (((b'.sat bi).S - x.Sr c)/(1 - x.Sr c))).dk*(1/(1 - x.Sr c))⟩ := by
  obtain ⟨hlen, hcell, hub, hinj, hfind⟩ := boundary_list hn
  set l := boundaryFaces nFaces face with hl
  have hc : ∀ i < l.length, (nth l i).cell < nc := by
    intro i hi
    obtain ⟨c, hc, -, -, e, -⟩ := hcell i hi
    omega
  obtain ⟨s, es, hs⟩ := saturation_points hr mo l.length (fun i => (nth l i).cell) hc
    (fun i => x.Sr (nth l i).cell) (fun i => x.Pref - b.P (nth l i).bnd.toNat) junkS
  obtain ⟨kr, ek, hkr⟩ := relPerm_points hr mo l.length (fun i => (nth l i).cell) hc
    (fun i => ((s i).S - x.Sr (nth l i).cell)/(1.0 - x.Sr (nth l i).cell)) junkK k hk
  obtain ⟨h1, h2, h3, h4⟩ := store_loop l.length (fun i => (nth l i).bnd.toNat) s
    (fun i => ⟨(kr i).k, (kr i).dk*(1.0/(1.0 - x.Sr (nth l i).cell))⟩) b hinj
  refine ⟨_, ?_, h1, h2, h3, ?_⟩
  · unfold updateBoundaryState
    rw [← hl]
    dsimp only
    rw [if_neg (by omega), if_neg (by rintro ⟨f, hf, h⟩; exact hub f hf h), es]
    simp only [Option.bind_some]
    rw [ek]
    rfl
  · intro i hi c bi h
    obtain ⟨j, hj, ec, eb⟩ := hfind i hi c bi h
    obtain ⟨g1, g2⟩ := h4 j hj
    have eb' : (nth l j).bnd.toNat = bi := by omega
    rw [eb'] at g1 g2
    rw [g1, g2, hkr j hj, hs j hj, ec, eb', one_lit]
    exact ⟨rfl, rfl⟩

/-- Density and viscosity of the boundary faces after setup. -/
theorem initBoundary_done (x : Ctx) (nBnd : Nat) (mnacl0 : ℝ) (b : Bnd) {d v : Out}
    (hd : waterDensity x.density x.Pref x.Tref mnacl0 = some d)
    (hv : waterViscosity x.viscosity x.Pref x.Tref mnacl0 = some v) :
    ∃ b', initBoundary x nBnd mnacl0 b = .ok b' ∧ ∀ i < nBnd, b'.rho i = d.v ∧ b'.vis i = v.v := by
  induction nBnd with
  | zero => exact ⟨b, rfl, fun i h => by omega⟩
  | succ n ih =>
    obtain ⟨b', e, h⟩ := ih
    refine ⟨{ b' with rho := wr b'.rho n d.v, vis := wr b'.vis n v.v }, ?_, ?_⟩
    · unfold initBoundary at e ⊢
      simp only [forN]; rw [e]
      simp only [Res.bind, hd, hv]
    · intro i hi
      by_cases e : i = n
      · subst e; dsimp only; rw [wr_same, wr_same]; exact ⟨rfl, rfl⟩
      · dsimp only; rw [wr_other _ _ e, wr_other _ _ e]; exact h i (by omega)

end

end TDy.State.Proofs
