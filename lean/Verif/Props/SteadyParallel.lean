import Verif.Spec.SteadyParallel
import Verif.Props.MpfaoSteady

/-!
# C191: the steady system of MPFA-O does not depend on how the mesh is distributed or numbered
-/

namespace TDy.Mpfao.Props

open TDy TDy.Mpfao TDy.Mpfao.Spec Finset

section

variable {g l : Steady} {w : SteadyView}

theorem sum_permuted (n : Nat) (p : Nat → Nat) (lt : ∀ k < n, p k < n)
    (inj : ∀ k < n, ∀ j < n, p k = p j → k = j) (f : Nat → ℝ) :
    ∑ k ∈ range n, f (p k) = ∑ k ∈ range n, f k := by
  have hi : Set.InjOn p (range n : Finset Nat) := fun a ha b hb e =>
    inj a (mem_range.1 ha) b (mem_range.1 hb) e
  have im : (range n).image p = range n := by
    apply eq_of_subset_of_card_le
    · intro k hk
      obtain ⟨j, hj, rfl⟩ := mem_image.1 hk
      exact mem_range.2 (lt j (mem_range.1 hj))
    · rw [card_image_of_injOn hi]
  rw [← sum_image (f := f) hi, im]

theorem flipSign_ne (b : Bool) : flipSign b*flipSign b = 1 := by cases b <;> simp [flipSign]

/-- The flux through a subface seen by the process. -/
theorem throughSub_seen (h : SeesSteady g l w) (u U : Nat → ℝ) (hl : Surrounded l)
    (hu : ∀ b < l.numCells, u (l.gid b) = U (g.gid (w.cell b))) (v : Nat) (hv : OwnVertex l v)
    (hc : ¬IsCorner (l.vert v)) (i : Nat) (hi : i < (l.vert v).nFaces) :
    throughSub l (l.vert v) u i =
      flipSign (w.flip v i)*throughSub g (g.vert (w.vert v)) U (w.row v i) := by
  unfold throughSub
  rw [mul_add, mul_sum, mul_sum]
  congr 1
  · rw [← h.nCells v hv]
    refine Eq.trans ?_ (sum_permuted _ (w.around v) (h.aroundLt v hv) (h.aroundInj v hv) _)
    refine sum_congr rfl fun k hk => ?_
    have hk := mem_range.1 hk
    rw [h.transCell v hv hc i hi k hk, hu _ (hl.cells v hv.1 k hk), h.around v hv k hk]
    ring
  · rw [← h.nBnd v hv]
    refine Eq.trans ?_ (sum_permuted _ (w.bnd v) (h.bndLt v hv) (h.bndInj v hv) _)
    refine sum_congr rfl fun k hk => ?_
    have hk := mem_range.1 hk
    rw [h.transBnd v hv hc i hi k hk, h.bndP v hv k hk, h.nCells v hv]
    ring

/-- A side of a face is the row of cell `a` exactly if it is so in the whole mesh. -/
theorem ownsSide_seen (h : SeesSteady g l w) (hl : Surrounded l) (hg : Surrounded g)
    (all : HoldsAll g) (a : Nat) (ha : a < l.numCells) (hla : l.isLocal a = true) (x y : ℤ)
    (hx : 0 ≤ x → x.toNat < l.numCells) (e : SameSide w x y) :
    OwnsSide l x (l.gid a) ↔ OwnsSide g y (g.gid (w.cell a)) := by
  by_cases x0 : 0 ≤ x
  · have ey := e.1 x0
    constructor
    · rintro ⟨-, -, c⟩
      have := hl.gids _ (hx x0) _ ha c
      refine ⟨by omega, all.cell _, ?_⟩
      rw [ey, Int.toNat_natCast, this]
    · rintro ⟨-, -, c⟩
      rw [ey, Int.toNat_natCast] at c
      have := hg.gids _ (h.cellLt _ (hx x0)) _ (h.cellLt _ ha) c
      have := h.cellInj _ (hx x0) _ ha this
      exact ⟨x0, by rw [this]; exact hla, by rw [this]⟩
  · have := e.2 (by omega)
    exact ⟨fun k => absurd k.1 x0, fun k => absurd k.1 (by omega)⟩

/-- What a subface brings to the row of a cell the process owns. -/
theorem subfaceIn_seen (h : SeesSteady g l w) (u U : Nat → ℝ) (hl : Surrounded l)
    (hg : Surrounded g) (all : HoldsAll g)
    (hu : ∀ b < l.numCells, u (l.gid b) = U (g.gid (w.cell b))) (a : Nat) (ha : a < l.numCells)
    (hla : l.isLocal a = true) (v : Nat) (hv : OwnVertex l v)
    (hc : ¬IsCorner (l.vert v)) (i : Nat) (hi : i < (l.vert v).nFaces) :
    subfaceIn l (l.vert v) u (l.gid a) i =
      subfaceIn g (g.vert (w.vert v)) U (g.gid (w.cell a)) (w.row v i) := by
  have hup : 0 ≤ (l.face ((l.vert v).face i)).up →
      (l.face ((l.vert v).face i)).up.toNat < l.numCells := by
    intro k
    obtain ⟨j, hj, e⟩ := hl.up v hv.1 i hi k
    rw [← e]; exact hl.cells v hv.1 j hj
  have hdn : 0 ≤ (l.face ((l.vert v).face i)).dn →
      (l.face ((l.vert v).face i)).dn.toNat < l.numCells := by
    intro k
    obtain ⟨j, hj, e⟩ := hl.dn v hv.1 i hi k
    rw [← e]; exact hl.cells v hv.1 j hj
  unfold subfaceIn
  rw [throughSub_seen h u U hl hu v hv hc i hi]
  cases hf : w.flip v i
  · obtain ⟨e1, e2⟩ := h.sides v hv i hi hf
    rw [if_congr (ownsSide_seen h hl hg all a ha hla _ _ hdn e2) rfl rfl,
      if_congr (ownsSide_seen h hl hg all a ha hla _ _ hup e1) rfl rfl]
    simp [flipSign]
  · obtain ⟨e1, e2⟩ := h.flipped v hv i hi hf
    rw [if_congr (ownsSide_seen h hl hg all a ha hla _ _ hdn e2) rfl rfl,
      if_congr (ownsSide_seen h hl hg all a ha hla _ _ hup e1) rfl rfl]
    simp only [flipSign, if_true]
    split_ifs <;> ring

/-- What a corner brings to the row of its cell. -/
theorem cornerIn_seen (h : SeesSteady g l w) (u U : Nat → ℝ) (hl : Surrounded l)
    (hu : ∀ b < l.numCells, u (l.gid b) = U (g.gid (w.cell b))) (v : Nat) (hv : OwnVertex l v)
    (hc : IsCorner (l.vert v)) (h1 : (l.vert v).nCells = 1) (h3 : (l.vert v).nBnd = 3) (i : Nat)
    (hi : i < 3) :
    cornerIn l (l.vert v) u i = cornerIn g (g.vert (w.vert v)) U (w.crow v i) := by
  have ec : u (l.gid ((l.vert v).cell 0)) = U (g.gid ((g.vert (w.vert v)).cell 0)) := by
    have k0 : 0 < (l.vert v).nCells := by omega
    have e0 : w.around v 0 = 0 := by
      have := h.aroundLt v hv 0 k0
      omega
    have := h.around v hv 0 k0
    rw [e0] at this
    rw [this, hu _ (hl.cells v hv.1 0 k0)]
  have sum3 : ∀ f : Nat → ℝ, f 0 + f 1 + f 2 = ∑ k ∈ range 3, f k := by
    intro f; simp [sum_range_succ]
  have lt3 : ∀ k < 3, w.bnd v k < 3 := fun k hk => by
    have := h.bndLt v hv k (by omega); omega
  have inj3 : ∀ k < 3, ∀ j < 3, w.bnd v k = w.bnd v j → k = j := fun k hk j hj e =>
    h.bndInj v hv k (by omega) j (by omega) e
  have eT : (l.vert v).T i 0 + (l.vert v).T i 1 + (l.vert v).T i 2 =
      flipSign (w.cflip v i)*((g.vert (w.vert v)).T (w.crow v i) 0 +
        (g.vert (w.vert v)).T (w.crow v i) 1 + (g.vert (w.vert v)).T (w.crow v i) 2) := by
    rw [sum3 (fun k => (l.vert v).T i k), sum3 (fun k => (g.vert (w.vert v)).T (w.crow v i) k), mul_sum]
    refine Eq.trans ?_ (sum_permuted 3 (w.bnd v) lt3 inj3 _)
    exact sum_congr rfl fun k hk => h.ctrans v hv hc i hi k (mem_range.1 hk)
  have eB : ∑ k ∈ range 3, (l.vert v).T i k*(l.vert v).bndP k =
      flipSign (w.cflip v i)*∑ k ∈ range 3, (g.vert (w.vert v)).T (w.crow v i) k*
        (g.vert (w.vert v)).bndP k := by
    rw [mul_sum]
    refine Eq.trans ?_ (sum_permuted 3 (w.bnd v) lt3 inj3 _)
    refine sum_congr rfl fun k hk => ?_
    have hk := mem_range.1 hk
    rw [h.ctrans v hv hc i hi k hk, h.bndP v hv k (by omega)]
    ring
  unfold cornerIn
  dsimp only
  rw [eT, eB, ec]
  have es := h.csides v hv hc i hi
  cases hf : w.cflip v i
  · rw [hf] at es
    simp only [Bool.false_eq_true, if_false] at es
    rw [if_congr es rfl rfl]
    simp [flipSign]
  · rw [hf] at es
    simp only [if_true] at es
    rw [if_congr es rfl rfl]
    simp only [flipSign, if_true, ite_not]
    split_ifs <;> ring

/-- What vertex `v` brings to row `r` (see `C60_rows`). -/
noncomputable def vertexIn (m : Steady) (u : Nat → ℝ) (r v : Nat) : ℝ :=
  (if Regular (m.vert v) then
    ∑ i ∈ range (m.vert v).nFaces, subfaceIn m (m.vert v) u r i else 0) +
  if IsCorner (m.vert v) ∧ Owns m ((m.vert v).cell 0) r then
    ∑ i ∈ range 3, cornerIn m (m.vert v) u i else 0

/-- A vertex that does not belong to the cell brings nothing to its row. -/
theorem vertexIn_away {m : Steady} {N : Nat} (ok : SteadyOk m N) (hm : Surrounded m) (u : Nat → ℝ)
    (a : Nat) (ha : a < m.numCells) (v : Nat) (hv : v < m.numVertices) (hn : ¬At m v a) :
    vertexIn m u (m.gid a) v = 0 := by
  unfold vertexIn
  have h1 : ∀ i < (m.vert v).nFaces, subfaceIn m (m.vert v) u (m.gid a) i = 0 := by
    intro i hi
    unfold subfaceIn
    rw [if_neg, if_neg, sub_zero]
    · rintro ⟨k0, -, e⟩
      obtain ⟨k, hk, ek⟩ := hm.up v hv i hi k0
      exact hn ⟨k, hk, by
        rw [ek]; exact hm.gids _ (by rw [← ek]; exact hm.cells v hv k hk) _ ha e⟩
    · rintro ⟨k0, -, e⟩
      obtain ⟨k, hk, ek⟩ := hm.dn v hv i hi k0
      exact hn ⟨k, hk, by
        rw [ek]; exact hm.gids _ (by rw [← ek]; exact hm.cells v hv k hk) _ ha e⟩
  rw [if_neg (c := IsCorner (m.vert v) ∧ _), add_zero]
  · split_ifs
    · exact sum_eq_zero fun i hi => h1 i (mem_range.1 hi)
    · rfl
  · rintro ⟨hc, -, e⟩
    obtain ⟨n1, -⟩ := ok.corner v hv (by omega) (by omega)
    exact hn ⟨0, by omega, hm.gids _ (hm.cells v hv 0 (by omega)) _ ha e⟩

/-- What a vertex of an own cell brings to its row. -/
theorem vertexIn_seen {N : Nat} (okl : SteadyOk l N)
    (h : SeesSteady g l w) (u U : Nat → ℝ) (hl : Surrounded l)
    (hg : Surrounded g) (all : HoldsAll g)
    (hu : ∀ b < l.numCells, u (l.gid b) = U (g.gid (w.cell b))) (a : Nat) (ha : a < l.numCells)
    (hla : l.isLocal a = true) (v : Nat) (hv : v < l.numVertices) (hat : At l v a) :
    vertexIn l u (l.gid a) v = vertexIn g U (g.gid (w.cell a)) (w.vert v) := by
  have own : OwnVertex l v := ⟨hv, a, hla, hat⟩
  have eB := h.nBnd v own
  have eC := h.nCells v own
  have hloc := h.vertLocal v own
  have hloc' := all.vert (w.vert v)
  have eR : Regular (l.vert v) ↔ Regular (g.vert (w.vert v)) := by
    simp only [Regular, eB, eC, hloc, hloc']
  have eK : IsCorner (l.vert v) ↔ IsCorner (g.vert (w.vert v)) := by
    simp only [IsCorner, eB, eC]
  unfold vertexIn
  by_cases hc : IsCorner (l.vert v)
  · obtain ⟨n1, n3, -⟩ := okl.corner v hv (by omega) (by omega)
    have nR : ¬Regular (l.vert v) := by
      simp only [Regular, hloc]; omega
    rw [if_neg nR, if_neg (fun k => nR (eR.2 k))]
    congr 1
    have k0 : 0 < (l.vert v).nCells := by omega
    obtain ⟨k, hk, ek⟩ := hat
    have : k = 0 := by omega
    subst this
    have e0 : w.around v 0 = 0 := by
      have := h.aroundLt v own 0 k0
      omega
    have ea := h.around v own 0 k0
    rw [e0, ek] at ea
    rw [if_pos ⟨hc, by rw [ek]; exact hla, by rw [ek]⟩,
      if_pos ⟨eK.1 hc, all.cell _, by rw [ea]⟩]
    refine Eq.trans ?_ (sum_permuted 3 (w.crow v) (h.crowLt v own hc) (h.crowInj v own hc) _)
    exact sum_congr rfl fun i hi =>
      cornerIn_seen h u U hl hu v own hc n1 n3 i (mem_range.1 hi)
  · rw [if_neg (c := IsCorner (l.vert v) ∧ _) (fun k => hc k.1),
      if_neg (c := IsCorner (g.vert (w.vert v)) ∧ _) (fun k => hc (eK.2 k.1)), add_zero, add_zero]
    by_cases hr : Regular (l.vert v)
    · rw [if_pos hr, if_pos (eR.1 hr), ← h.nFaces v own]
      refine Eq.trans ?_ (sum_permuted _ (w.row v) (h.rowLt v own) (h.rowInj v own) _)
      exact sum_congr rfl fun i hi =>
        subfaceIn_seen h u U hl hg all hu a ha hla v own hc i (mem_range.1 hi)
    · rw [if_neg hr, if_neg (fun k => hr (eR.2 k))]

/-- The source of a cell the process owns. -/
theorem sourceIn_own {m : Steady} (hm : Surrounded m) (a : Nat) (ha : a < m.numCells)
    (hla : m.isLocal a = true) : sourceIn m (m.gid a) =
      match m.forcing with
      | none => 0
      | some f => f a*m.vol a := by
  unfold sourceIn
  cases m.forcing with
  | none => rfl
  | some f =>
    dsimp only
    rw [sum_eq_single a]
    · exact if_pos ⟨hla, rfl⟩
    · intro b hb hne
      exact if_neg fun k => hne (hm.gids b (mem_range.1 hb) a ha k.2)
    · intro k; exact absurd (mem_range.2 ha) k

theorem sourceIn_seen (h : SeesSteady g l w) (hl : Surrounded l) (hg : Surrounded g)
    (all : HoldsAll g) (a : Nat) (ha : a < l.numCells) (hla : l.isLocal a = true) :
    sourceIn l (l.gid a) = sourceIn g (g.gid (w.cell a)) := by
  rw [sourceIn_own hl a ha hla, sourceIn_own hg _ (h.cellLt a ha) (all.cell _)]
  have hs := h.source
  revert hs
  cases l.forcing <;> cases g.forcing <;> dsimp only
  · intro _; rfl
  · intro k; exact absurd k id
  · intro k; exact absurd k id
  · intro k; exact k a ha

end

/-- C191: the equation of a cell that a process assembles for a cell it owns is the one a single process
assembles: at the same pressures it is out of balance by the same amount.  `N` and `M` are the numbers
of unknowns, `s` and `S` what matrix and right-hand side held before. -/
theorem C191_rows (g l : Steady) (w : SteadyView) (N M : Nat) (okl : SteadyOk l N)
    (okg : SteadyOk g M) (all : HoldsAll g) (hl : Surrounded l) (hg : Surrounded g)
    (h : SeesSteady g l w) (u U : Nat → ℝ)
    (hu : ∀ b < l.numCells, u (l.gid b) = U (g.gid (w.cell b))) (s S : Sys) (a : Nat)
    (ha : a < l.numCells) (hla : l.isLocal a = true)
    (hF : s.F (l.gid a) = S.F (g.gid (w.cell a))) :
    unbalance N (computeSystem l s) u (l.gid a) =
      unbalance M (computeSystem g S) U (g.gid (w.cell a)) := by
  classical
  rw [C60_rows okl, C60_rows okg, sourceIn_seen h hl hg all a ha hla, hF]
  congr 2
  change ∑ v ∈ range l.numVertices, vertexIn l u (l.gid a) v =
    ∑ V ∈ range g.numVertices, vertexIn g U (g.gid (w.cell a)) V
  rw [← sum_filter_of_ne (s := range l.numVertices) (p := fun v => At l v a) (by
      intro v hv hne
      by_contra hn
      exact hne (vertexIn_away okl hl u a ha v (mem_range.1 hv) hn)),
    ← sum_filter_of_ne (s := range g.numVertices) (p := fun V => At g V (w.cell a)) (by
      intro v hv hne
      by_contra hn
      exact hne (vertexIn_away okg hg U _ (h.cellLt a ha) v (mem_range.1 hv) hn))]
  refine sum_bij (fun v _ => w.vert v) ?_ ?_ ?_ ?_
  · intro v hv
    obtain ⟨hv, hat⟩ := mem_filter.1 hv
    have hv := mem_range.1 hv
    have own : OwnVertex l v := ⟨hv, a, hla, hat⟩
    obtain ⟨k, hk, e⟩ := hat
    refine mem_filter.2 ⟨mem_range.2 (h.vertLt v own), w.around v k, ?_, ?_⟩
    · rw [← h.nCells v own]; exact h.aroundLt v own k hk
    · rw [h.around v own k hk, e]
  · intro v hv v' hv' e
    obtain ⟨hv, hat⟩ := mem_filter.1 hv
    obtain ⟨hv', hat'⟩ := mem_filter.1 hv'
    exact h.vertInj v v' ⟨mem_range.1 hv, a, hla, hat⟩ ⟨mem_range.1 hv', a, hla, hat'⟩ e
  · intro V hV
    obtain ⟨hV, hat⟩ := mem_filter.1 hV
    obtain ⟨v, hv, k, e⟩ := h.cover a ha hla V (mem_range.1 hV) hat
    exact ⟨v, mem_filter.2 ⟨mem_range.2 hv, k⟩, e⟩
  · intro v hv
    obtain ⟨hv, hat⟩ := mem_filter.1 hv
    exact vertexIn_seen okl h u U hl hg all hu a ha hla v (mem_range.1 hv) hat

/-- An entry of the matrix from the balances. -/
theorem entry_of_unbalance (N : Nat) (s : Sys) (r c : Nat) (hc : c < N) :
    s.K r c = unbalance N s (fun x => if x = c then 1 else 0) r - unbalance N s (fun _ => 0) r := by
  simp [unbalance, hc]

/-- C191: the entries of the matrix are the same. -/
theorem C191_matrix (g l : Steady) (w : SteadyView) (N M : Nat) (okl : SteadyOk l N)
    (okg : SteadyOk g M) (all : HoldsAll g) (hl : Surrounded l) (hg : Surrounded g)
    (h : SeesSteady g l w) (s S : Sys) (a : Nat) (ha : a < l.numCells) (hla : l.isLocal a = true)
    (hF : s.F (l.gid a) = S.F (g.gid (w.cell a)))
    (b : Nat) (hb : b < l.numCells) (hN : l.gid b < N) (hM : g.gid (w.cell b) < M) :
    (computeSystem l s).K (l.gid a) (l.gid b) =
      (computeSystem g S).K (g.gid (w.cell a)) (g.gid (w.cell b)) := by
  rw [entry_of_unbalance N _ _ _ hN, entry_of_unbalance M _ _ _ hM]
  congr 1
  · refine C191_rows g l w N M okl okg all hl hg h _ _ (fun c hc => ?_) s S a ha hla hF
    refine if_congr ⟨fun e => ?_, fun e => ?_⟩ rfl rfl
    · rw [hl.gids _ hc _ hb e]
    · rw [h.cellInj _ hc _ hb (hg.gids _ (h.cellLt _ hc) _ (h.cellLt _ hb) e)]
  · exact C191_rows g l w N M okl okg all hl hg h _ _ (fun _ _ => rfl) s S a ha hla hF

/-- C191: the entries of the right-hand side are the same. -/
theorem C191_right_hand_side (g l : Steady) (w : SteadyView) (N M : Nat) (okl : SteadyOk l N)
    (okg : SteadyOk g M) (all : HoldsAll g) (hl : Surrounded l) (hg : Surrounded g)
    (h : SeesSteady g l w) (s S : Sys) (a : Nat) (ha : a < l.numCells) (hla : l.isLocal a = true)
    (hF : s.F (l.gid a) = S.F (g.gid (w.cell a))) :
    (computeSystem l s).F (l.gid a) = (computeSystem g S).F (g.gid (w.cell a)) := by
  have := C191_rows g l w N M okl okg all hl hg h (fun _ => 0) (fun _ => 0) (fun _ _ => rfl) s S a
    ha hla hF
  simpa [unbalance] using this

/-- C191: a process puts nothing into a row that none of its own cells has: what the processes add to
the rows of others does not exist. -/
theorem C191_only_own_rows (l : Steady) (N : Nat) (okl : SteadyOk l N) (s : Sys) (r : Nat)
    (hr : ∀ a, l.isLocal a = true → l.gid a ≠ r) :
    (∀ c < N, (computeSystem l s).K r c = 0) ∧ (computeSystem l s).F r = s.F r := by
  have z : ∀ u, unbalance N (computeSystem l s) u r = -s.F r := by
    intro u
    rw [C60_rows okl]
    have h1 : ∀ v, (if Regular (l.vert v) then
        ∑ i ∈ range (l.vert v).nFaces, subfaceIn l (l.vert v) u r i else 0) = 0 := by
      intro v
      split_ifs
      · refine sum_eq_zero fun i _ => ?_
        unfold subfaceIn
        rw [if_neg (fun k => hr _ k.2.1 k.2.2), if_neg (fun k => hr _ k.2.1 k.2.2), sub_zero]
      · rfl
    have h2 : sourceIn l r = 0 := by
      unfold sourceIn
      cases l.forcing with
      | none => rfl
      | some f => exact sum_eq_zero fun i _ => if_neg fun k => hr _ k.1 k.2
    rw [h2, sum_eq_zero]
    · ring
    · intro v _
      rw [h1, if_neg (fun k => hr _ k.2.1 k.2.2), add_zero]
  constructor
  · intro c hc
    rw [entry_of_unbalance N _ _ _ hc, z, z, sub_self]
  · have := z (fun _ => 0)
    simpa [unbalance] using this

/-- C191: the whole mesh on any number of processes.  If process `r` owns the cells with `owner = r` and
sees its part of the mesh, the pressures satisfy the equations of all processes exactly if they satisfy
those of a single process. -/
theorem C191_same_solutions (g : Steady) (M : Nat) (okg : SteadyOk g M) (all : HoldsAll g)
    (hg : Surrounded g) (ranks : Nat) (owner : Nat → Nat) (l : Nat → Steady)
    (w : Nat → SteadyView) (hown : ∀ j < g.numCells, owner j < ranks)
    (okl : ∀ r < ranks, SteadyOk (l r) M) (hl : ∀ r < ranks, Surrounded (l r))
    (sees : ∀ r < ranks, SeesSteady g (l r) (w r))
    (hlocal : ∀ r < ranks, ∀ a < (l r).numCells,
      (l r).isLocal a = true ↔ owner ((w r).cell a) = r)
    (hall : ∀ j < g.numCells, ∃ a < (l (owner j)).numCells, (w (owner j)).cell a = j)
    (u : Nat → ℝ) (U : Nat → ℝ)
    (hu : ∀ r < ranks, ∀ b < (l r).numCells, u ((l r).gid b) = U (g.gid ((w r).cell b))) :
    (∀ r < ranks, ∀ a < (l r).numCells, (l r).isLocal a = true →
      unbalance M (computeSystem (l r) ⟨fun _ _ => 0, fun _ => 0⟩) u ((l r).gid a) = 0) ↔
    ∀ j < g.numCells,
      unbalance M (computeSystem g ⟨fun _ _ => 0, fun _ => 0⟩) U (g.gid j) = 0 := by
  constructor
  · intro hz j hj
    obtain ⟨a, ha, e⟩ := hall j hj
    have hr := hown j hj
    have hla := (hlocal _ hr a ha).2 (by rw [e])
    have := hz _ hr a ha hla
    rwa [C191_rows g _ _ M M (okl _ hr) okg all (hl _ hr) hg (sees _ hr) u U (hu _ hr) _ ⟨fun _ _ => 0,
      fun _ => 0⟩ a ha hla rfl, e] at this
  · intro hz r hr a ha hla
    rw [C191_rows g _ _ M M (okl _ hr) okg all (hl _ hr) hg (sees _ hr) u U (hu _ hr) _ ⟨fun _ _ => 0,
      fun _ => 0⟩ a ha hla rfl]
    exact hz _ ((sees r hr).cellLt a ha)

namespace SteadySplitWitness

/-- The two cubes of `SteadyWitness`, with a source, as the process holds them that owns the first: it
lists the other cell first, the corner before the shared vertex, exchanges two faces of the corner and
names the sides of the face between the cells in the other order. -/
noncomputable def g : Steady := SteadyWitness.m 3 (some fun c => c + 1)

def swap : Nat → Nat
  | 0 => 1 | 1 => 0 | n => n

noncomputable def verts : Nat → SVert
  | 0 => { isLocal := true, nFaces := 3, nBnd := 3, nCells := 1, cell := fun _ => 1
           face := fun i => 5 + i, T := fun i j => SteadyWitness.Tc (swap i) j, bndP := fun _ => 3
           subFace := fun k => 5 + k }
  | _ => { isLocal := true, nFaces := 5, nBnd := 4, nCells := 2, cell := fun k => k
           face := fun i => i
           T := fun i j => flipSign (decide (i = 0))*(SteadyWitness.edge 3).T i (swap j)
           bndP := fun _ => 3, subFace := fun _ => 0 }

def faces : Nat → MFace
  | 0 => ⟨0, 1, true⟩ | 1 => ⟨1, -1, true⟩ | 2 => ⟨-1, 1, true⟩ | 3 => ⟨0, -1, true⟩
  | 4 => ⟨-1, 0, true⟩ | _ => ⟨1, -1, true⟩

noncomputable def l : Steady :=
  { numVertices := 2, numCells := 2, vert := verts, face := faces, isLocal := fun c => decide (c = 1)
    gid := swap, vol := fun _ => 1, forcing := some fun c => (swap c : ℝ) + 1 }

def w : SteadyView :=
  { cell := swap, vert := swap, row := fun _ i => i, flip := fun v i => decide (v = 1 ∧ i = 0)
    around := fun v k => if v = 1 then swap k else k, bnd := fun _ k => k
    crow := fun _ i => swap i, cflip := fun _ _ => false }

theorem okl : SteadyOk l 2 := by
  refine ⟨?_, ?_, ?_, ?_⟩
  · intro v hv k hk
    change v < 2 at hv
    interval_cases v
    · exact Nat.zero_lt_two
    · change k < 2 at hk
      change swap k < 2
      interval_cases k <;> decide
  · intro v hv
    change v < 2 at hv
    interval_cases v <;> simp [l, verts]
  · intro v hv i hi
    change v < 2 at hv
    interval_cases v
    · change i < 0 at hi; omega
    · change i < 1 at hi
      have : i = 0 := by omega
      subst this
      simp [l, verts, faces]
  · intro v hv h1 h2
    change v < 2 at hv
    interval_cases v
    · refine ⟨rfl, rfl, fun k hk => Or.inl ?_⟩
      interval_cases k <;> simp [l, verts, faces]
    · change 2 ≤ 1 at h2; omega

theorem surroundedL : Surrounded l := by
  refine ⟨?_, ?_, ?_, ?_⟩
  · intro v hv k hk
    change v < 2 at hv
    interval_cases v
    · exact Nat.one_lt_two
    · exact hk
  · intro v hv i hi h0
    change v < 2 at hv
    interval_cases v
    · change i < 3 at hi
      exact ⟨0, Nat.one_pos, by interval_cases i <;> rfl⟩
    · change i < 5 at hi
      interval_cases i
      · exact ⟨0, Nat.two_pos, rfl⟩
      · exact ⟨1, Nat.one_lt_two, rfl⟩
      · exact absurd h0 (by decide)
      · exact ⟨0, Nat.two_pos, rfl⟩
      · exact absurd h0 (by decide)
  · intro v hv i hi h0
    change v < 2 at hv
    interval_cases v
    · change i < 3 at hi
      exact absurd h0 (by interval_cases i <;> decide)
    · change i < 5 at hi
      interval_cases i
      · exact ⟨1, Nat.one_lt_two, rfl⟩
      · exact absurd h0 (by decide)
      · exact ⟨1, Nat.one_lt_two, rfl⟩
      · exact absurd h0 (by decide)
      · exact ⟨0, Nat.two_pos, rfl⟩
  · intro a ha b hb e
    change a < 2 at ha
    change b < 2 at hb
    change swap a = swap b at e
    interval_cases a <;> interval_cases b <;> first | rfl | (exact absurd e (by decide))

theorem surroundedG : Surrounded g := by
  refine ⟨?_, ?_, ?_, fun a _ b _ e => e⟩
  · intro v hv k hk
    change v < 2 at hv
    interval_cases v
    · exact hk
    · exact Nat.two_pos
  · intro v hv i hi h0
    change v < 2 at hv
    interval_cases v
    · change i < 5 at hi
      interval_cases i
      · exact ⟨0, Nat.two_pos, rfl⟩
      · exact ⟨0, Nat.two_pos, rfl⟩
      · exact absurd h0 (by decide)
      · exact ⟨1, Nat.one_lt_two, rfl⟩
      · exact absurd h0 (by decide)
    · change i < 3 at hi
      exact ⟨0, Nat.one_pos, by interval_cases i <;> rfl⟩
  · intro v hv i hi h0
    change v < 2 at hv
    interval_cases v
    · change i < 5 at hi
      interval_cases i
      · exact ⟨1, Nat.one_lt_two, rfl⟩
      · exact absurd h0 (by decide)
      · exact ⟨0, Nat.two_pos, rfl⟩
      · exact absurd h0 (by decide)
      · exact ⟨1, Nat.one_lt_two, rfl⟩
    · change i < 3 at hi
      exact absurd h0 (by interval_cases i <;> decide)

theorem all : HoldsAll g := by
  refine ⟨fun _ => rfl, fun v => ?_⟩
  cases v <;> rfl

theorem swap_inj (n : Nat) (hn : n = 2 ∨ n = 3) (k : Nat) (hk : k < n) (j : Nat) (hj : j < n)
    (e : swap k = swap j) : k = j := by
  rcases hn with rfl | rfl <;> interval_cases k <;> interval_cases j <;>
    first | rfl | (exact absurd e (by decide))

theorem sees : SeesSteady g l w where
  cellLt a ha := by
    change a < 2 at ha
    change swap a < 2
    interval_cases a <;> decide
  cellInj a ha b hb e := swap_inj 2 (Or.inl rfl) a ha b hb e
  vertLt v hv := by
    have : v < 2 := hv.1
    change swap v < 2
    interval_cases v <;> decide
  vertInj v v' hv hv' e := swap_inj 2 (Or.inl rfl) v hv.1 v' hv'.1 e
  vertLocal v hv := by
    have : v < 2 := hv.1
    interval_cases v <;> rfl
  nFaces v hv := by
    have : v < 2 := hv.1
    interval_cases v <;> rfl
  nBnd v hv := by
    have : v < 2 := hv.1
    interval_cases v <;> rfl
  nCells v hv := by
    have : v < 2 := hv.1
    interval_cases v <;> rfl
  rowLt _ _ _ hi := hi
  rowInj _ _ _ _ _ _ e := e
  sides v hv i hi hf := by
    have : v < 2 := hv.1
    interval_cases v
    · change i < 3 at hi
      interval_cases i <;> exact ⟨⟨fun _ => rfl, by decide⟩, ⟨by decide, by decide⟩⟩
    · change i < 5 at hi
      interval_cases i
      · exact absurd hf (by decide)
      · exact ⟨⟨fun _ => rfl, by decide⟩, ⟨by decide, by decide⟩⟩
      · exact ⟨⟨by decide, by decide⟩, ⟨fun _ => rfl, by decide⟩⟩
      · exact ⟨⟨fun _ => rfl, by decide⟩, ⟨by decide, by decide⟩⟩
      · exact ⟨⟨by decide, by decide⟩, ⟨fun _ => rfl, by decide⟩⟩
  flipped v hv i hi hf := by
    have : v < 2 := hv.1
    have hf : v = 1 ∧ i = 0 := of_decide_eq_true hf
    obtain ⟨rfl, rfl⟩ := hf
    exact ⟨⟨fun _ => rfl, by decide⟩, ⟨fun _ => rfl, by decide⟩⟩
  aroundLt v hv k hk := by
    have : v < 2 := hv.1
    interval_cases v
    · exact hk
    · change k < 2 at hk
      change swap k < 2
      interval_cases k <;> decide
  aroundInj v hv k hk j hj e := by
    have : v < 2 := hv.1
    interval_cases v
    · exact e
    · exact swap_inj 2 (Or.inl rfl) k hk j hj e
  around v hv k hk := by
    have : v < 2 := hv.1
    interval_cases v <;> rfl
  bndLt _ _ _ hk := hk
  bndInj _ _ _ _ _ _ e := e
  bndP v hv k hk := by
    have : v < 2 := hv.1
    interval_cases v <;> rfl
  transCell v hv hc i hi k hk := by
    have : v < 2 := hv.1
    interval_cases v
    · exact absurd (show IsCorner (l.vert 0) by simp [l, verts]) hc
    · have e : decide (i = 0) = w.flip 1 i := by simp [w]
      rw [← e]; rfl
  transBnd v hv hc i hi k hk := by
    have : v < 2 := hv.1
    interval_cases v
    · exact absurd (show IsCorner (l.vert 0) by simp [l, verts]) hc
    · have e : decide (i = 0) = w.flip 1 i := by simp [w]
      rw [← e]; rfl
  crowLt v hv hc i hi := by
    change swap i < 3
    interval_cases i <;> decide
  crowInj v hv hc i hi j hj e := swap_inj 3 (Or.inr rfl) i hi j hj e
  csides v hv hc i hi := by
    have : v < 2 := hv.1
    interval_cases v
    · interval_cases i <;> exact iff_of_true (show (0:ℤ) ≤ 0 by decide) (show (0:ℤ) ≤ 1 by decide)
    · exact absurd hc (by simp [l, verts])
  ctrans v hv hc i hi k hk := by
    have : v < 2 := hv.1
    interval_cases v
    · change _ = (1 : ℝ)*_
      rw [one_mul]; rfl
    · exact absurd hc (by simp [l, verts])
  source := fun a _ => rfl
  cover a ha hla V hV hat := by
    change V < 2 at hV
    have ha1 : a = 1 := of_decide_eq_true hla
    subst ha1
    interval_cases V
    · exact ⟨1, Nat.one_lt_two, ⟨1, Nat.one_lt_two, rfl⟩, rfl⟩
    · exact ⟨0, Nat.two_pos, ⟨0, Nat.one_pos, rfl⟩, rfl⟩

end SteadySplitWitness

/-- The process that owns the first of the two cubes assembles its equation as a single process does. -/
example (u : Nat → ℝ) :
    unbalance 2 (computeSystem SteadySplitWitness.l ⟨fun _ _ => 7, fun _ => 0⟩) u 0 =
      unbalance 2 (computeSystem SteadySplitWitness.g ⟨fun _ _ => 5, fun _ => 0⟩) u 0 :=
  C191_rows _ _ _ 2 2 SteadySplitWitness.okl (SteadyWitness.ok _ _) SteadySplitWitness.all
    SteadySplitWitness.surroundedL SteadySplitWitness.surroundedG SteadySplitWitness.sees u u
    (fun _ _ => rfl) _ _ 1 Nat.one_lt_two rfl rfl

end TDy.Mpfao.Props
