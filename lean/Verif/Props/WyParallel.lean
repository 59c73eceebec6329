import Verif.Proofs.WyParallel
import Verif.Props.WyBalance

/-!
# C192: the WY system does not depend on how the mesh is distributed
-/

namespace TDy.Fe.Props

open TDy.Fe TDy.Fe.Spec TDy.Fe.Proofs Finset

noncomputable section

theorem row_seen {g l : Wy} {w : WyView} {num : Nat → Nat} (hg : GlobalNumbers g num)
    (hl : GlobalNumbers l (fun a => num (w.cell a))) (hlt : ∀ a < l.nCells, w.cell a < g.nCells) {a : Nat}
    (ha : a < l.nCells) : l.row a = g.row (w.cell a) := by
  rw [row_num hl ha, row_num hg (hlt a ha)]

/-- The vertices of an owned cell, on the process and in the whole mesh. -/
theorem sum_vertices_seen {g l : Wy} {Kg Kl : Nat → Nat → ℝ} {w : WyView} (hw : SeesWy g l Kg Kl w) {a : Nat}
    (ha : a < l.nCells) (ho : 0 ≤ l.global a) (f h : Nat → ℝ)
    (e : ∀ v, OwnCorner l v → a ∈ l.cells v → f v = h (w.vert v)) :
    (∑ v ∈ Ico l.vStart l.vEnd, if a ∈ l.cells v then f v else 0)
      = ∑ v ∈ Ico g.vStart g.vEnd, if w.cell a ∈ g.cells v then h v else 0 := by
  rw [← sum_filter, ← sum_filter]
  have hown : ∀ v ∈ (Ico l.vStart l.vEnd).filter (fun v => a ∈ l.cells v), OwnCorner l v := by
    intro v hv
    rw [mem_filter, mem_Ico] at hv
    exact ⟨hv.1.1, hv.1.2, a, hv.2, ho⟩
  refine sum_bij (fun v _ => w.vert v) ?_ ?_ ?_ ?_
  · intro v hv
    have h1 := hown v hv
    rw [mem_filter] at hv
    rw [mem_filter, mem_Ico]
    exact ⟨hw.vertLt v h1, cell_there hw h1 hv.2⟩
  · intro v hv v' hv' he
    exact hw.vertInj v v' (hown v hv) (hown v' hv') he
  · intro V hV
    rw [mem_filter, mem_Ico] at hV
    obtain ⟨v, h1, h2, h3, rfl⟩ := hw.cover a ha ho V hV.1.1 hV.1.2 hV.2
    exact ⟨v, by rw [mem_filter, mem_Ico]; exact ⟨⟨h1, h2⟩, h3⟩, rfl⟩
  · intro v hv
    have h1 := hown v hv
    rw [mem_filter] at hv
    exact e v h1 hv.2

/-- The source of a cell is the same. -/
theorem source_seen {g l : Wy} {Kg Kl : Nat → Nat → ℝ} {w : WyView} (hw : SeesWy g l Kg Kl w) {a : Nat}
    (ha : a < l.nCells) : cellSource l a = cellSource g (w.cell a) := by
  unfold cellSource
  rw [hw.hasForcing, ← hw.nq]
  congr 1
  refine sum_congr rfl fun q hq => ?_
  rw [hw.force a ha q (mem_range.1 hq), hw.jac a ha q (mem_range.1 hq)]

/-- C192.  Rows of the cells a process owns: the entries it assembles and the right hand side are those
that a single process assembles for the whole mesh, in every column. -/
theorem C192_rows (g l : Wy) (Kg Kl : Nat → Nat → ℝ) (w : WyView) (num : Nat → Nat)
    (corg corl : Nat → Nat → Nat) (hw : SeesWy g l Kg Kl w)
    (hsg : ∀ v, g.vStart ≤ v → v < g.vEnd → Star g v (corg v))
    (hsl : ∀ v, l.vStart ≤ v → v < l.vEnd → Star l v (corl v))
    (hng : GlobalNumbers g num) (hnl : GlobalNumbers l (fun a => num (w.cell a)))
    (hall : ∀ c < g.nCells, 0 ≤ g.global c) (eg el eg' el' : Local) (sg sl : Sys)
    (hg : wyComputeSystem g Kg eg ⟨fun _ _ => 0, fun _ => 0⟩ = .ok (eg', sg))
    (hl : wyComputeSystem l Kl el ⟨fun _ _ => 0, fun _ => 0⟩ = .ok (el', sl)) :
    ∀ a < l.nCells, 0 ≤ l.global a →
      (∀ b, sl.K (num (w.cell a)) b = sg.K (num (w.cell a)) b)
      ∧ sl.F (num (w.cell a)) = sg.F (num (w.cell a)) := by
  intro a ha ho
  have hA := hw.cellLt a ha
  have hLg := local_ok (system_parts hg).1
  have hLl := local_ok (system_parts hl).1
  have r1 := row_num hnl ha
  have r2 := row_num hng hA
  constructor
  · intro b
    have k1 := (system_entry (cor := corl) hsl (row_inj hnl) hl ha ho b).1
    have k2 := (system_entry (cor := corg) hsg (row_inj hng) hg hA (hall _ hA) b).1
    rw [r1] at k1
    rw [r2] at k2
    rw [k1, k2]
    refine sum_vertices_seen hw ha ho _ (fun V => ∑ c' ∈ (g.cells V).toFinset, (if b = g.row c' then
      kept g.tol (g.cells V).length (cMat g eg'.A V (corg V)) (Ci g V (w.cell a)) (Ci g V c') else 0)) ?_
    intro v hv hav
    obtain ⟨h1, h2⟩ := hw.vertLt v hv
    have hS := hsg _ h1 h2
    rw [sum_relabelled (hw.cells v hv) hS.cells_nodup]
    refine sum_congr rfl fun c hc => ?_
    have hc' := List.mem_toFinset.1 hc
    rw [kept_seen hw hv (hsl v hv.1 hv.2.1) hS hLl hLg hav hc', row_seen hng hnl hw.cellLt (cells_lt hc')]
  · have k1 := (system_entry (cor := corl) hsl (row_inj hnl) hl ha ho 0).2
    have k2 := (system_entry (cor := corg) hsg (row_inj hng) hg hA (hall _ hA) 0).2
    rw [r1] at k1
    rw [r2] at k2
    rw [k1, k2, local_source (hLl a ha), local_source (hLg _ hA), source_seen hw ha]
    congr 1
    refine sum_vertices_seen hw ha ho _ (fun V => dVec g eg'.A V (corg V) (Ci g V (w.cell a))) ?_
    intro v hv hav
    obtain ⟨h1, h2⟩ := hw.vertLt v hv
    exact (stencil_seen hw hv (hsl v hv.1 hv.2.1) (hsg _ h1 h2) hLl hLg hav).2

/-- C192.  A process adds nothing to the rows of cells it does not own. -/
theorem C192_only_own_rows (l : Wy) (Kl : Nat → Nat → ℝ) (num : Nat → Nat) (hn : GlobalNumbers l num)
    (el el' : Local) (s s' : Sys) (h : wyComputeSystem l Kl el s = .ok (el', s')) (r : Nat)
    (hr : ∀ a < l.nCells, 0 ≤ l.global a → r ≠ num a) : (∀ b, s'.K r b = s.K r b) ∧ s'.F r = s.F r :=
  system_foreign h fun c hc ho => row_num hn hc ▸ hr c hc ho

/-- C192.  Added up over the processes, when each cell is owned by exactly one of them, the system is the
one a single process assembles. -/
theorem C192_assembled (g : Wy) (Kg : Nat → Nat → ℝ) (num : Nat → Nat) (corg : Nat → Nat → Nat)
    (hsg : ∀ v, g.vStart ≤ v → v < g.vEnd → Star g v (corg v))
    (hng : GlobalNumbers g num) (hall : ∀ c < g.nCells, 0 ≤ g.global c) (eg eg' : Local) (sg : Sys)
    (hg : wyComputeSystem g Kg eg ⟨fun _ _ => 0, fun _ => 0⟩ = .ok (eg', sg))
    (P : Nat) (l : Nat → Wy) (Kl : Nat → Nat → Nat → ℝ) (w : Nat → WyView) (corl : Nat → Nat → Nat → Nat)
    (hw : ∀ p < P, SeesWy g (l p) Kg (Kl p) (w p))
    (hsl : ∀ p < P, ∀ v, (l p).vStart ≤ v → v < (l p).vEnd → Star (l p) v (corl p v))
    (hnl : ∀ p < P, GlobalNumbers (l p) (fun a => num ((w p).cell a)))
    (hone : ∀ c < g.nCells, ∃ p < P, ∃ a < (l p).nCells, 0 ≤ (l p).global a ∧ (w p).cell a = c
      ∧ ∀ p' < P, ∀ a' < (l p').nCells, 0 ≤ (l p').global a' → (w p').cell a' = c → p' = p)
    (el el' : Nat → Local) (sl : Nat → Sys)
    (hl : ∀ p < P, wyComputeSystem (l p) (Kl p) (el p) ⟨fun _ _ => 0, fun _ => 0⟩ = .ok (el' p, sl p)) :
    (∀ r b, ∑ p ∈ range P, (sl p).K r b = sg.K r b) ∧ ∀ r, ∑ p ∈ range P, (sl p).F r = sg.F r := by
  suffices h : ∀ r, (∀ b, ∑ p ∈ range P, (sl p).K r b = sg.K r b) ∧ ∑ p ∈ range P, (sl p).F r = sg.F r from
    ⟨fun r => (h r).1, fun r => (h r).2⟩
  intro r
  by_cases hr : ∃ c < g.nCells, r = num c
  · obtain ⟨c, hc, rfl⟩ := hr
    obtain ⟨p, hp, a, ha, ho, rfl, honly⟩ := hone c hc
    have hrest : ∀ p' < P, p' ≠ p → (∀ b, (sl p').K (num ((w p).cell a)) b = 0)
        ∧ (sl p').F (num ((w p).cell a)) = 0 := by
      intro p' hp' hne
      refine C192_only_own_rows (l p') (Kl p') _ (hnl p' hp') _ _ _ _ (hl p' hp') _ ?_
      intro a' ha' ho' e
      exact hne (honly p' hp' a' ha' ho' (hng.inj _ ((hw p' hp').cellLt a' ha') _ hc e.symm))
    have hrows := C192_rows g (l p) Kg (Kl p) (w p) num corg (corl p) (hw p hp) hsg (hsl p hp) hng
      (hnl p hp) hall eg (el p) eg' (el' p) sg (sl p) hg (hl p hp) a ha ho
    refine ⟨fun b => ?_, ?_⟩
    · rw [sum_eq_single p, hrows.1 b]
      · intro p' hp' hne
        exact (hrest p' (mem_range.1 hp') hne).1 b
      · intro hn
        exact absurd (mem_range.2 hp) hn
    · rw [sum_eq_single p, hrows.2]
      · intro p' hp' hne
        exact (hrest p' (mem_range.1 hp') hne).2
      · intro hn
        exact absurd (mem_range.2 hp) hn
  · have h0 := C192_only_own_rows g Kg num hng eg eg' _ _ hg r (fun a ha _ e => hr ⟨a, ha, e⟩)
    have hp : ∀ p < P, (∀ b, (sl p).K r b = 0) ∧ (sl p).F r = 0 := fun p hp =>
      C192_only_own_rows (l p) (Kl p) _ (hnl p hp) _ _ _ _ (hl p hp) r
        (fun a ha _ e => hr ⟨_, (hw p hp).cellLt a ha, e⟩)
    refine ⟨fun b => ?_, ?_⟩
    · rw [h0.1 b, sum_eq_zero fun p h => (hp p (mem_range.1 h)).1 b]
    · rw [h0.2, sum_eq_zero fun p h => (hp p (mem_range.1 h)).2]

/-! ### The residual -/

theorem vertex_det {w : Wy} {v : Nat} {cor : Nat → Nat} (h : Star w v cor) {Al : Nat → Nat → Nat → ℝ}
    {u : Nat → ℝ} {vel vel' : Nat → Nat → ℝ} (hok : velocityVertex w Al u v vel = .ok vel') :
    (mat (w.faces v).length (w.faces v).length (aMat w Al v cor)).det ≠ 0 := by
  unfold velocityVertex at hok
  by_cases hs : 144 < (w.faces v).length*(w.faces v).length
  · unfold vertexVelocity at hok
    rw [if_pos hs] at hok
    exact absurd hok (by simp)
  · obtain ⟨t, ht, hA, hF⟩ := velocity_closed h Al u hs
    have hA' : t.A = aMat w Al v cor := by funext r k; exact hA r k
    rw [ht] at hok
    dsimp only at hok
    unfold recoverVelocity at hok
    dsimp only at hok
    rw [hA'] at hok
    intro hd
    rw [if_pos hd] at hok
    exact absurd hok (by simp)

theorem recover_det {w : Wy} {cor : Nat → Nat → Nat}
    (hstar : ∀ v, w.vStart ≤ v → v < w.vEnd → Star w v (cor v))
    {Al : Nat → Nat → Nat → ℝ} {u : Nat → ℝ} {vel vel' : Nat → Nat → ℝ}
    (hok : wyRecoverVelocity w Al u vel = .ok vel') :
    ∀ v, w.vStart ≤ v → v < w.vEnd →
      (mat (w.faces v).length (w.faces v).length (aMat w Al v (cor v))).det ≠ 0 := by
  have h := forN_res (w.vEnd - w.vStart) (fun k => velocityVertex w Al u (w.vStart + k))
    (fun m (_ : Nat → Nat → ℝ) => ∀ k < m, (mat (w.faces (w.vStart + k)).length
      (w.faces (w.vStart + k)).length (aMat w Al (w.vStart + k) (cor (w.vStart + k)))).det ≠ 0) vel vel'
    (by simp) (by
      intro m hm s s' hs hstep k hk
      by_cases hkm : k = m
      · subst hkm
        exact vertex_det (hstar _ (by omega) (by omega)) hstep
      · exact hs k (by omega)) hok
  intro v h1 h2
  have := h (v - w.vStart) (by omega)
  rwa [Nat.add_sub_cancel' h1] at this

/-- The residual of an owned cell: accumulation, stencils times pressures, source. -/
theorem residual_exact {w : Wy} {K : Nat → Nat → ℝ} {cor : Nat → Nat → Nat}
    {pl : Nat → Nat → Nat} {l : Local} {porosity dSdP u dpdt : Nat → ℝ}
    {vel : Nat → Nat → ℝ} {R R' : Nat → ℝ}
    (hstar : ∀ v, w.vStart ≤ v → v < w.vEnd → Star w v (cor v))
    (hpl : ∀ v, w.vStart ≤ v → v < w.vEnd → ∀ f ∈ w.faces v, Place w f v (pl f v))
    (hmap : ∀ c < w.nCells, 0 ≤ w.global c → CellMap w pl c)
    (hres : wyResidual w K porosity dSdP u dpdt l vel R = .ok R') :
    ∃ l', (∀ c < w.nCells, LocalIs w K l' c) ∧ ∀ c < w.nCells, 0 ≤ w.global c →
      R' c = porosity c*dSdP c*dpdt c + (∑ q ∈ range w.nq, ((∑ c' ∈ (w.cells (w.vmap c q)).toFinset,
        cMat w l'.A (w.vmap c q) (cor (w.vmap c q)) (Ci w (w.vmap c q) c) (Ci w (w.vmap c q) c')*u c')
      - dVec w l'.A (w.vmap c q) (cor (w.vmap c q)) (Ci w (w.vmap c q) c))) - cellSource w c := by
  obtain ⟨l', vel', hl', hvel, hR⟩ := residual_parts hres
  have hL := local_ok hl'
  refine ⟨l', hL, fun c hc ho => ?_⟩
  have hm := hmap c hc ho
  rw [hR c, if_pos ⟨hc, ho⟩, local_source (hL c hc), divergence_corners hstar hpl hm]
  congr 2
  refine sum_congr rfl fun q hq => ?_
  have hq' := mem_range.1 hq
  obtain ⟨h1, h2, h3⟩ := hm.vertex q hq'
  have hS := hstar _ h1 h2
  have hcor : cor (w.vmap c q) c = q := (hS.cor_only c h3 q hq' rfl).symm
  obtain ⟨y, hy, hs, _⟩ := recover_ok hstar hpl hvel _ h1 h2
  have hb := balance_vertex hS (recover_det hstar hvel _ h1 h2) hs h3
  have e : ∑ c' ∈ (w.cells (w.vmap c q)).toFinset, cMat w l'.A (w.vmap c q) (cor (w.vmap c q))
      (Ci w (w.vmap c q) c) (Ci w (w.vmap c q) c')*u c'
      = ∑ m ∈ range (w.cells (w.vmap c q)).length, cMat w l'.A (w.vmap c q) (cor (w.vmap c q))
        (Ci w (w.vmap c q) c) m*u ((w.cells (w.vmap c q)).getD m 0) := by
    rw [← sum_cells_places hS.cells_nodup]
    refine sum_congr rfl fun m hm => ?_
    have hm' := mem_range.1 hm
    have : Ci w (w.vmap c q) ((w.cells (w.vmap c q)).getD m 0) = m := by
      rw [getD_lt _ hm']
      exact Ci_getElem hS ⟨m, hm'⟩
    rw [this]
  rw [e]
  unfold cMat dVec
  rw [hb]
  refine sum_congr rfl fun d hd => ?_
  have hf := hS.face_mem c h3 d (mem_range.1 hd)
  rw [hcor] at hf
  unfold bTerm
  rw [hcor, ← hy _ hf]

/-- C192.  The residual a process computes for a cell it owns is the one a single process computes for
the whole mesh, when the pressures and rates it holds are those of the whole mesh. -/
theorem C192_residual (g l : Wy) (Kg Kl : Nat → Nat → ℝ) (w : WyView)
    (corg corl : Nat → Nat → Nat) (plg pll : Nat → Nat → Nat) (hw : SeesWy g l Kg Kl w)
    (hsg : ∀ v, g.vStart ≤ v → v < g.vEnd → Star g v (corg v))
    (hsl : ∀ v, l.vStart ≤ v → v < l.vEnd → Star l v (corl v))
    (hpg : ∀ v, g.vStart ≤ v → v < g.vEnd → ∀ f ∈ g.faces v, Place g f v (plg f v))
    (hpl : ∀ v, l.vStart ≤ v → v < l.vEnd → ∀ f ∈ l.faces v, Place l f v (pll f v))
    (hmg : ∀ c < g.nCells, 0 ≤ g.global c → CellMap g plg c)
    (hml : ∀ c < l.nCells, 0 ≤ l.global c → CellMap l pll c)
    (hall : ∀ c < g.nCells, 0 ≤ g.global c)
    (pog dSg ug dg pol dSl ul dl : Nat → ℝ)
    (hpo : ∀ a < l.nCells, pol a = pog (w.cell a)) (hdS : ∀ a < l.nCells, dSl a = dSg (w.cell a))
    (hu : ∀ a < l.nCells, ul a = ug (w.cell a)) (hd : ∀ a < l.nCells, dl a = dg (w.cell a))
    (eg el : Local) (vg vl : Nat → Nat → ℝ) (Rg Rl Rg' Rl' : Nat → ℝ)
    (hg : wyResidual g Kg pog dSg ug dg eg vg Rg = .ok Rg')
    (hl : wyResidual l Kl pol dSl ul dl el vl Rl = .ok Rl') :
    ∀ a < l.nCells, 0 ≤ l.global a → Rl' a = Rg' (w.cell a) := by
  intro a ha ho
  have hA := hw.cellLt a ha
  obtain ⟨eg', hLg, hRg⟩ := residual_exact hsg hpg hmg hg
  obtain ⟨el', hLl, hRl⟩ := residual_exact hsl hpl hml hl
  rw [hRl a ha ho, hRg _ hA (hall _ hA), source_seen hw ha, hpo a ha, hdS a ha, hd a ha, ← hw.nq]
  congr 2
  refine sum_congr rfl fun q hq => ?_
  have hq' := mem_range.1 hq
  obtain ⟨h1, h2, h3⟩ := (hml a ha ho).vertex q hq'
  have hv : OwnCorner l (l.vmap a q) := ⟨h1, h2, a, h3, ho⟩
  have hV := hw.corner _ hv a h3 q hq' rfl
  rw [hV]
  obtain ⟨h1', h2'⟩ := hw.vertLt _ hv
  have hS := hsg _ h1' h2'
  obtain ⟨k1, k2⟩ := stencil_seen hw hv (hsl _ h1 h2) hS hLl hLg h3
  rw [k2, sum_relabelled (hw.cells _ hv) hS.cells_nodup]
  congr 1
  refine sum_congr rfl fun c hc => ?_
  have hc' := List.mem_toFinset.1 hc
  rw [k1 c hc', hu c (cells_lt hc')]

end

end TDy.Fe.Props
