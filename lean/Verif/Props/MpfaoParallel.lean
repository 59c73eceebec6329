import Verif.Spec.MpfaoParallel
import Verif.Proofs.MpfaoFlux
import Verif.Props.MpfaoFlux

/-!
# C186: the equations do not depend on the number of processes

The residual a process computes for a cell it owns is the one a single process computes for it,
whatever part of the mesh the process sees besides and however it numbers it.
-/

namespace TDy.Mpfao.Props

open TDy.Mpfao TDy.Mpfao.Spec TDy.Mpfao.Proofs Finset
open TDy.Fvtpf (Side Bc)

noncomputable section

/-- The entry of `TtimesP_vec` of a subface is its own row times the pressures. -/
theorem ttimesP_own (c : Ctx) (ok : Addressed c) (v i : Nat) (hs : LocalSubface c v i) :
    ttimesP c (slot (c.vert v) i) =
      ∑ j ∈ range (c.vert v).nCols, (c.vert v).M i j*pVec c ((c.vert v).col j) := by
  have hl := hs.2
  have row : ∀ b, transMat c (slot (c.vert v) i) b =
      ∑ j ∈ range (c.vert v).nCols, if b = (c.vert v).col j then (c.vert v).M i j else 0 := by
    intro b
    rw [transMat_apply, sum_eq_single v, sum_eq_single i]
    · rw [if_pos hl]
      exact sum_congr rfl fun j _ => by simp [ok.own v i hs]
    · intro i' hi' hne
      rw [if_pos hl]
      refine sum_eq_zero fun j _ => if_neg ?_
      rintro ⟨e, _⟩
      have hs' : LocalSubface c v i' := ⟨⟨hs.1.1, mem_range.1 hi'⟩, hl⟩
      rw [ok.own v i' hs'] at e
      exact hne (ok.slots v i v i' hs hs' e).2.symm
    · intro h; exact absurd (mem_range.2 hs.1.2) h
    · intro v' hv' hne
      refine sum_eq_zero fun i' hi' => ?_
      split
      · rename_i hl'
        have hs' : LocalSubface c v' i' := ⟨⟨mem_range.1 hv', mem_range.1 hi'⟩, hl'⟩
        refine sum_eq_zero fun j _ => if_neg ?_
        rintro ⟨e, _⟩
        rw [ok.own v' i' hs'] at e
        exact hne (ok.slots v i v' i' hs hs' e).1.symm
      · rfl
    · intro h; exact absurd (mem_range.2 hs.1.1) h
  unfold ttimesP
  simp only [row, sum_mul]
  rw [sum_comm]
  refine sum_congr rfl fun j hj => ?_
  rw [sum_eq_single ((c.vert v).col j)]
  · simp
  · intro b _ hb; simp [hb]
  · intro h; exact absurd (mem_range.2 (ok.cols v hs.1.1 hl j (mem_range.1 hj))) h

section
variable {g l : Ctx} {w : View}

theorem seen_local (own : OwnsAll g) (h : Sees g l w) (v i : Nat) (hs : LocalSubface l v i) :
    LocalSubface g (w.vert v) (w.row v i) :=
  ⟨⟨h.vertLt v hs.1.1 hs.2, h.rowLt v i hs⟩, own.vert _⟩

theorem pVec_seen (h : Sees g l w) (j : Nat) (hj : j < l.numCells + l.numBnd) :
    pVec l j = pVec g (w.column g l j) := by
  unfold pVec View.column
  by_cases hc : j < l.numCells
  · rw [if_pos hc, if_pos hc, if_pos (h.cellLt j hc), (h.cells j hc).1]
  · have hb : j - l.numCells < l.numBnd := by omega
    rw [if_neg hc, if_neg hc, if_neg (by omega), Nat.add_sub_cancel_left, h.bnds _ hb]

/-- The pressure part of the flux of a subface. -/
theorem ttimesP_seen (own : OwnsAll g) (h : Sees g l w) (ag : Addressed g) (al : Addressed l)
    (v i : Nat) (hs : LocalSubface l v i) :
    ttimesP l (slot (l.vert v) i) =
      w.sign v i*ttimesP g (slot (g.vert (w.vert v)) (w.row v i)) := by
  have hg := seen_local own h v i hs
  rw [ttimesP_own l al v i hs, ttimesP_own g ag _ _ hg]
  have key : ∀ (n : Nat) (M : Nat → ℝ) (col : Nat → Nat) (p : Nat → ℝ) (N : Nat),
      (∀ j < n, col j < N) →
      ∑ j ∈ range n, M j*p (col j) =
        ∑ J ∈ range N, (∑ j ∈ range n, if col j = J then M j else 0)*p J := by
    intro n M col p N hlt
    simp only [sum_mul]
    rw [sum_comm]
    refine sum_congr rfl fun j hj => ?_
    rw [sum_eq_single (col j)]
    · simp
    · intro J _ hne; rw [if_neg (Ne.symm hne), zero_mul]
    · intro hn; exact absurd (mem_range.2 (hlt j (mem_range.1 hj))) hn
  have e1 : ∑ j ∈ range (l.vert v).nCols, (l.vert v).M i j*pVec l ((l.vert v).col j) =
      ∑ j ∈ range (l.vert v).nCols,
        (l.vert v).M i j*pVec g (w.column g l ((l.vert v).col j)) := by
    refine sum_congr rfl fun j hj => ?_
    rw [pVec_seen h _ (al.cols v hs.1.1 hs.2 j (mem_range.1 hj))]
  have hcol : ∀ j < (l.vert v).nCols,
      w.column g l ((l.vert v).col j) < g.numCells + g.numBnd := by
    intro j hj
    have hb := al.cols v hs.1.1 hs.2 j hj
    unfold View.column
    by_cases hc : (l.vert v).col j < l.numCells
    · rw [if_pos hc]
      have := h.cellLt _ hc
      omega
    · rw [if_neg hc]
      have := h.bndLt ((l.vert v).col j - l.numCells) (by omega)
      omega
  rw [e1, key _ (fun j => (l.vert v).M i j) (fun j => w.column g l ((l.vert v).col j)) (pVec g)
      (g.numCells + g.numBnd) hcol,
    key _ (fun j => (g.vert (w.vert v)).M (w.row v i) j) _ (pVec g) (g.numCells + g.numBnd)
      (ag.cols _ hg.1.1 hg.2), mul_sum]
  refine sum_congr rfl fun J _ => ?_
  rw [h.trans v i hs J]
  ring

theorem side_seen (h : Sees g l w) (id : ℤ) (hid : SideOk l id) :
    side l id = side g (w.side id) := by
  unfold side View.side
  by_cases h0 : 0 ≤ id
  · rw [if_pos h0, if_pos h0, if_pos (by omega)]
    have ha : id.toNat < l.numCells := by have := hid.2; omega
    rw [(h.cells _ ha).1]
    rfl
  · have hb : (-id - 1).toNat < l.numBnd := by have := hid.1; omega
    rw [if_neg h0, if_neg h0, if_neg (by omega), h.bnds _ hb]
    congr 1
    omega

theorem side_neg (id : ℤ) : w.side id < 0 ↔ id < 0 := by
  unfold View.side
  split <;> omega

/-- Exchanging the two sides changes the sign of the flux and nothing else. -/
theorem fluxm_flip (c : Ctx) (f f' : MFace) (hu : f'.up = f.dn) (hd : f'.dn = f.up) (TP G : ℝ) :
    fluxm c f' (-TP) (-G) = -fluxm c f TP G := by
  have z : (0.0:ℝ) = 0 := by norm_num
  have hden : denAvg c f' = denAvg c f := by
    unfold denAvg; rw [hu, hd, add_right_comm]
  have hdr : driving c f' (-TP) (-G) = -driving c f TP G := by
    unfold driving; rw [hden]; ring
  by_cases h0 : driving c f TP G = 0
  · have e : ∀ (k : MFace) (A B : ℝ), driving c k A B = 0 → fluxm c k A B = 0 := by
      intro k A B hk
      unfold fluxm
      split
      · exact z
      · unfold driving at hk
        have : A = -(denAvg c k*B) := by linarith
        rw [this]; ring
    rw [e f TP G h0, e f' (-TP) (-G) (by rw [hdr, h0, neg_zero]), neg_zero]
  · have hiff : driving c f' (-TP) (-G) < 0.0 ↔ ¬ driving c f TP G < 0.0 := by
      rw [hdr, z, not_lt, neg_lt_zero]
      exact ⟨fun hp => hp.le, fun hp => lt_of_le_of_ne hp (Ne.symm h0)⟩
    have hsh : shut c f' (-TP) (-G) ↔ shut c f TP G := by
      unfold shut
      by_cases hd' : driving c f TP G < 0.0
      · rw [if_pos hd', if_neg (by rw [hiff]; exact fun k => k hd'), hd]
      · rw [if_neg hd', if_pos (hiff.2 hd'), hu]
    have huk : ukvr c f' (-TP) (-G) = ukvr c f TP G := by
      unfold ukvr
      by_cases hd' : driving c f TP G < 0.0
      · rw [if_pos hd', if_neg (by rw [hiff]; exact fun k => k hd'), hd]
      · rw [if_neg hd', if_pos (hiff.2 hd'), hu]
    unfold fluxm
    by_cases hs : shut c f TP G
    · rw [if_pos hs, if_pos (hsh.2 hs), z, neg_zero]
    · rw [if_neg hs, if_neg (fun k => hs (hsh.1 k)), huk, hden]; ring

/-- The flux formula reads only what the two sides hold. -/
theorem fluxm_sides (f F : MFace) (hbc : l.bc = g.bc) (hpr : l.Pref = g.Pref)
    (su : side l f.up = side g F.up) (sd : side l f.dn = side g F.dn)
    (nu : f.up < 0 ↔ F.up < 0) (nd : f.dn < 0 ↔ F.dn < 0) (TP G : ℝ) :
    fluxm l f TP G = fluxm g F TP G := by
  have hden : denAvg l f = denAvg g F := by unfold denAvg; rw [su, sd]
  have hdr : driving l f TP G = driving g F TP G := by unfold driving; rw [hden]
  have huk : ukvr l f TP G = ukvr g F TP G := by unfold ukvr; rw [hdr, su, sd]
  have hsh : shut l f TP G ↔ shut g F TP G := by
    unfold shut; rw [hdr, hbc, hpr, su, sd, nu, nd]
  unfold fluxm
  by_cases hs : shut g F TP G
  · rw [if_pos hs, if_pos (hsh.2 hs)]
  · rw [if_neg hs, if_neg (fun k => hs (hsh.1 k)), huk, hden]

theorem subfaceFlux_seen (own : OwnsAll g) (h : Sees g l w) (ag : Addressed g) (al : Addressed l)
    (v i : Nat) (hs : LocalSubface l v i) :
    subfaceFlux l v i = w.sign v i*subfaceFlux g (w.vert v) (w.row v i) := by
  unfold subfaceFlux
  rw [ttimesP_seen own h ag al v i hs, h.grav v i hs]
  have ou := h.upOk v i hs
  have od := h.dnOk v i hs
  cases hf : w.flip v i
  · obtain ⟨e1, e2⟩ := h.sides v i hs hf
    have hsg : w.sign v i = 1 := by simp [View.sign, hf]
    rw [hsg, one_mul, one_mul, one_mul]
    exact fluxm_sides _ _ h.bc h.pref
      (by rw [side_seen h _ ou, e1]) (by rw [side_seen h _ od, e2])
      (by rw [← e1, side_neg]) (by rw [← e2, side_neg]) _ _
  · obtain ⟨e1, e2⟩ := h.flipped v i hs hf
    have hsg : w.sign v i = -1 := by simp [View.sign, hf]
    rw [hsg, neg_one_mul, neg_one_mul, neg_one_mul]
    rw [← fluxm_flip g (faceOf g (w.vert v) (w.row v i))
      ⟨(faceOf g (w.vert v) (w.row v i)).dn, (faceOf g (w.vert v) (w.row v i)).up, true⟩ rfl rfl]
    exact fluxm_sides _ _ h.bc h.pref
      (by rw [side_seen h _ ou, e1]) (by rw [side_seen h _ od, e2])
      (by rw [← e1, side_neg]) (by rw [← e2, side_neg]) _ _

/-- Which cell a side is. -/
theorem side_cell (h : Sees g l w) (id : ℤ) (hid : SideOk l id) (a : Nat) (ha : a < l.numCells) :
    (0 ≤ id ∧ a = id.toNat) ↔ w.side id = w.cell a := by
  unfold View.side
  by_cases h0 : 0 ≤ id
  · rw [if_pos h0]
    have hn : id.toNat < l.numCells := by have := hid.2; omega
    constructor
    · rintro ⟨_, e⟩; rw [e]
    · intro e
      exact ⟨h0, (h.cellInj _ hn _ ha (by exact_mod_cast e)).symm⟩
  · rw [if_neg h0]
    constructor
    · intro k; exact absurd k.1 h0
    · intro e; omega

/-- What a subface adds to the residual of a cell the process owns. -/
theorem term_seen (own : OwnsAll g) (h : Sees g l w) (a : Nat)
    (ha : a < l.numCells) (hl : l.isLocal a = true) (q : Nat → Nat → ℝ) (Q : Nat → Nat → ℝ)
    (hq : ∀ v i, LocalSubface l v i → q v i = w.sign v i*Q (w.vert v) (w.row v i))
    (v i : Nat) (hs : LocalSubface l v i) :
    (if active l v i then fluxTerm l (faceOf l v i) (q v i) a else 0) =
      fluxTerm g (faceOf g (w.vert v) (w.row v i)) (Q (w.vert v) (w.row v i)) (w.cell a) := by
  have drop : (if active l v i then fluxTerm l (faceOf l v i) (q v i) a else 0) =
      fluxTerm l (faceOf l v i) (q v i) a := by
    by_cases hact : active l v i
    · rw [if_pos hact]
    · rw [if_neg hact]
      have n1 : ¬ (0 ≤ (faceOf l v i).up ∧ l.isLocal (faceOf l v i).up.toNat = true) :=
        fun k => hact (h.touch v i hs.1 (Or.inl k))
      have n2 : ¬ (0 ≤ (faceOf l v i).dn ∧ l.isLocal (faceOf l v i).dn.toNat = true) :=
        fun k => hact (h.touch v i hs.1 (Or.inr k))
      unfold fluxTerm
      rw [if_neg (by tauto), if_neg (by tauto), add_zero]
  rw [drop]
  have ou := h.upOk v i hs
  have od := h.dnOk v i hs
  have loc : ∀ id : ℤ, (0 ≤ id ∧ l.isLocal id.toNat = true ∧ a = id.toNat) ↔
      (0 ≤ id ∧ a = id.toNat) := by
    intro id
    constructor
    · rintro ⟨x, _, z⟩; exact ⟨x, z⟩
    · rintro ⟨x, z⟩; exact ⟨x, by rw [← z]; exact hl, z⟩
  have glo : ∀ id : ℤ, (0 ≤ id ∧ g.isLocal id.toNat = true ∧ w.cell a = id.toNat) ↔
      id = w.cell a := by
    intro id
    rw [own.cell]
    simp only [true_and]
    omega
  unfold fluxTerm
  simp only [loc, glo, side_cell h _ ou a ha, side_cell h _ od a ha, hq v i hs]
  cases hf : w.flip v i
  · obtain ⟨e1, e2⟩ := h.sides v i hs hf
    have hsg : w.sign v i = 1 := by simp [View.sign, hf]
    rw [e1, e2, hsg, one_mul]
  · obtain ⟨e1, e2⟩ := h.flipped v i hs hf
    have hsg : w.sign v i = -1 := by simp [View.sign, hf]
    rw [e1, e2, hsg, neg_one_mul, neg_neg, add_comm]

/-- The loop over vertices. -/
theorem vertexLoop_seen (own : OwnsAll g) (h : Sees g l w) (a : Nat)
    (ha : a < l.numCells) (hl : l.isLocal a = true) (q : Nat → Nat → ℝ) (Q : Nat → Nat → ℝ)
    (hq : ∀ v i, LocalSubface l v i → q v i = w.sign v i*Q (w.vert v) (w.row v i)) :
    vertexLoop l q (fun _ => 0) a = vertexLoop g Q (fun _ => 0) (w.cell a) := by
  classical
  rw [vertexLoop_apply, vertexLoop_apply]
  congr 1
  have act : ∀ V I, active g V I := fun V I => ⟨own.vert V, own.face _⟩
  simp only [act, if_true]
  set S := (range l.numVertices).filter (fun v => (l.vert v).isLocal = true) with hS
  have memS : ∀ v, v ∈ S ↔ v < l.numVertices ∧ (l.vert v).isLocal = true := by
    intro v; rw [hS, mem_filter, mem_range]
  have left : ∑ v ∈ range l.numVertices, ∑ i ∈ range (l.vert v).nRows,
      (if active l v i then fluxTerm l (faceOf l v i) (q v i) a else 0) =
      ∑ v ∈ S, ∑ i ∈ range (l.vert v).nRows,
      (if active l v i then fluxTerm l (faceOf l v i) (q v i) a else 0) := by
    rw [hS, sum_filter]
    refine sum_congr rfl fun v _ => ?_
    split
    · rfl
    · rename_i hv
      exact sum_eq_zero fun i _ => if_neg (fun k => hv k.1)
  have right : ∑ V ∈ range g.numVertices, ∑ I ∈ range (g.vert V).nRows,
      fluxTerm g (faceOf g V I) (Q V I) (w.cell a) =
      ∑ V ∈ S.image w.vert, ∑ I ∈ range (g.vert V).nRows,
      fluxTerm g (faceOf g V I) (Q V I) (w.cell a) := by
    symm
    apply sum_subset
    · intro V hV
      obtain ⟨v, hv, rfl⟩ := mem_image.1 hV
      exact mem_range.2 (h.vertLt v ((memS v).1 hv).1 ((memS v).1 hv).2)
    · intro V hV hn
      refine sum_eq_zero fun I hI => ?_
      have hsub : IsSubface g V I := ⟨mem_range.1 hV, mem_range.1 hI⟩
      have no : ¬ ((faceOf g V I).up = w.cell a ∨ (faceOf g V I).dn = w.cell a) := by
        intro k
        obtain ⟨v, hv, hvl, e⟩ := h.cover a ha hl V I hsub k
        exact hn (mem_image.2 ⟨v, (memS v).2 ⟨hv, hvl⟩, e⟩)
      unfold fluxTerm
      rw [if_neg (fun k => no (Or.inl (by omega))), if_neg (fun k => no (Or.inr (by omega))),
        add_zero]
  rw [left, right, sum_image]
  · refine sum_congr rfl fun v hv => ?_
    have hv' := (memS v).1 hv
    have hsub : ∀ i ∈ range (l.vert v).nRows, LocalSubface l v i :=
      fun i hi => ⟨⟨hv'.1, mem_range.1 hi⟩, hv'.2⟩
    rw [sum_congr rfl fun i hi => term_seen own h a ha hl q Q hq v i (hsub i hi)]
    have im : (range (l.vert v).nRows).image (w.row v) = range (g.vert (w.vert v)).nRows := by
      apply eq_of_subset_of_card_le
      · intro I hI
        obtain ⟨i, hi, rfl⟩ := mem_image.1 hI
        exact mem_range.2 (h.rowLt v i (hsub i hi))
      · rw [card_image_of_injOn, card_range, card_range, h.rows v hv'.1 hv'.2]
        intro i hi i' hi' e
        exact h.rowInj v i i' (hsub i hi) (hsub i' hi') e
    rw [← im, sum_image]
    intro i hi i' hi' e
    exact h.rowInj v i i' (hsub i hi) (hsub i' hi') e
  · intro v hv v' hv' e
    exact h.vertInj v ((memS v).1 hv).1 v' ((memS v').1 hv').1 ((memS v).1 hv).2 ((memS v').1 hv').2 e

end

/-- C186 for the time-stepping form: the residual of a cell a process owns is the one a single
process computes for this cell. -/
theorem C186_ts (g l : Ctx) (w : View) (own : OwnsAll g) (h : Sees g l w) (ag : Addressed g)
    (al : Addressed l) (a : Nat) (ha : a < l.numCells) (hl : l.isLocal a = true)
    (dpdt Dpdt : Nat → ℝ) (hd : dpdt a = Dpdt (w.cell a)) :
    tsFunction l dpdt a = tsFunction g Dpdt (w.cell a) := by
  unfold tsFunction ifunctionVertices
  rw [tsCellLoop_apply, tsCellLoop_apply, if_pos ⟨ha, hl⟩, if_pos ⟨h.cellLt a ha, own.cell _⟩,
    vertexLoop_seen own h a ha hl _ (subfaceFlux g)
      (fun v i hs => subfaceFlux_seen own h ag al v i hs)]
  obtain ⟨e1, e2, e3, e4⟩ := h.cells a ha
  unfold dmassdP
  rw [e1, e2, e3, e4, hd]

/-- C186 for backward Euler steps. -/
theorem C186_snes (g l : Ctx) (w : View) (own : OwnsAll g) (h : Sees g l w) (ag : Addressed g)
    (al : Addressed l) (a : Nat) (ha : a < l.numCells) (hl : l.isLocal a = true) (dtime : ℝ)
    (prev Prev : Nat → ℝ) (hd : prev a = Prev (w.cell a)) :
    snesFunction l dtime prev a = snesFunction g dtime Prev (w.cell a) := by
  unfold snesFunction ifunctionVertices
  rw [snesCellLoop_apply, snesCellLoop_apply, if_pos ⟨ha, hl⟩, if_pos ⟨h.cellLt a ha, own.cell _⟩,
    vertexLoop_seen own h a ha hl _ (subfaceFlux g)
      (fun v i hs => subfaceFlux_seen own h ag al v i hs)]
  obtain ⟨e1, e2, e3, e4⟩ := h.cells a ha
  unfold snesAccum
  rw [e1, e2, e3, e4, hd]

/-- What a process keeps of the previous step for a cell it owns is what a single process keeps. -/
theorem C186_previous (g l : Ctx) (w : View) (own : OwnsAll g) (h : Sees g l w) (a : Nat)
    (ha : a < l.numCells) (hl : l.isLocal a = true) (dtime : ℝ) (old Old : Nat → ℝ) :
    preSolve l dtime old a = preSolve g dtime Old (w.cell a) := by
  unfold preSolve
  rw [fillLoop_apply, fillLoop_apply, if_pos ⟨ha, hl⟩, if_pos ⟨h.cellLt a ha, own.cell _⟩]
  obtain ⟨e1, e2, e3, -⟩ := h.cells a ha
  unfold snesAccum
  rw [e1, e2, e3]

/-- C186 for the form with transient variables. -/
theorem C186_transient (g l : Ctx) (w : View) (own : OwnsAll g) (h : Sees g l w)
    (ag : Addressed g) (al : Addressed l) (a : Nat) (ha : a < l.numCells)
    (hl : l.isLocal a = true) (dmdt Dmdt : Nat → ℝ) (hd : dmdt a = Dmdt (w.cell a)) :
    transientFunction l dmdt a = transientFunction g Dmdt (w.cell a) := by
  unfold transientFunction ifunctionVertices
  rw [transientCellLoop_apply, transientCellLoop_apply, if_pos ⟨ha, hl⟩,
    if_pos ⟨h.cellLt a ha, own.cell _⟩,
    vertexLoop_seen own h a ha hl _ (subfaceFlux g)
      (fun v i hs => subfaceFlux_seen own h ag al v i hs)]
  obtain ⟨e1, e2, e3, e4⟩ := h.cells a ha
  rw [e2, e4, hd]

/-- C186: a step of the whole mesh distributed over any number of processes.  If process `r` owns
the cells with `owner = r` and sees its part of the mesh, the residual of the step is zero on all
processes exactly if it is zero for a single process: both accept the same solutions. -/
theorem C186_same_solutions (g : Ctx) (own : OwnsAll g) (ag : Addressed g) (ranks : Nat)
    (owner : Nat → Nat) (l : Nat → Ctx) (w : Nat → View) (hown : ∀ j < g.numCells, owner j < ranks)
    (sees : ∀ r < ranks, Sees g (l r) (w r)) (al : ∀ r < ranks, Addressed (l r))
    (hlocal : ∀ r < ranks, ∀ a < (l r).numCells,
      (l r).isLocal a = true ↔ owner ((w r).cell a) = r)
    (hall : ∀ j < g.numCells, ∃ a < (l (owner j)).numCells, (w (owner j)).cell a = j)
    (dtime : ℝ) (prev : Nat → Nat → ℝ) (Prev : Nat → ℝ)
    (hprev : ∀ r < ranks, ∀ a < (l r).numCells, prev r a = Prev ((w r).cell a)) :
    (∀ r < ranks, ∀ a < (l r).numCells, (l r).isLocal a = true →
      snesFunction (l r) dtime (prev r) a = 0) ↔
    ∀ j < g.numCells, snesFunction g dtime Prev j = 0 := by
  constructor
  · intro hz j hj
    obtain ⟨a, ha, e⟩ := hall j hj
    have hr := hown j hj
    have hl : (l (owner j)).isLocal a = true := (hlocal _ hr a ha).2 (by rw [e])
    have t := C186_snes g (l (owner j)) (w (owner j)) own (sees _ hr) ag (al _ hr) a ha hl dtime
      (prev (owner j)) Prev (hprev _ hr a ha)
    rw [hz _ hr a ha hl, e] at t
    exact t.symm
  · intro hz r hr a ha hl
    rw [C186_snes g (l r) (w r) own (sees r hr) ag (al r hr) a ha hl dtime (prev r) Prev
      (hprev r hr a ha)]
    exact hz _ ((sees r hr).cellLt a ha)

/-! ### The Jacobian -/

section
variable {g l : Ctx} {w : View}

theorem driving_eq (c : Ctx) (f : MFace) (TP G : ℝ) : drivingJ c f TP G = driving c f TP G := by
  have e : denAvgJ c f = denAvg c f := by
    unfold denAvgJ denAvg
    norm_num
    ring
  unfold drivingJ driving
  rw [e]

/-- The part of an entry of the Jacobian that does not come from the transmissibility. -/
def ownPart (c : Ctx) (f : MFace) (TP G : ℝ) (k : ℤ) : ℝ :=
  if f.up > -1 ∧ k = f.up then
    dden c f.up*ukvrJ c f TP G*(TP + 2*denAvgJ c f*G) +
      denAvgJ c f*dukvrUp c f TP G*(TP + denAvgJ c f*G)
  else if f.dn > -1 ∧ k = f.dn then
    dden c f.dn*ukvrJ c f TP G*(TP + 2*denAvgJ c f*G) +
      denAvgJ c f*dukvrDn c f TP G*(TP + denAvgJ c f*G)
  else 0

open Classical in
theorem jacEntry_split (c : Ctx) (f : MFace) (TP G T : ℝ) (k : Nat) :
    jacEntry c f TP G T k = if shutJ c f TP G then 0 else
      ownPart c f TP G k + denAvgJ c f*ukvrJ c f TP G*T := by
  have z : (0.0:ℝ) = 0 := by norm_num
  unfold jacEntry ownPart
  simp only [z]
  split_ifs <;> ring

open Classical in
/-- An entry of the Jacobian of a subface. -/
def entryOf (c : Ctx) (f : MFace) (TP G T : ℝ) (k : ℤ) : ℝ :=
  if shutJ c f TP G then 0 else ownPart c f TP G k + denAvgJ c f*ukvrJ c f TP G*T

theorem entryOf_flip (c : Ctx) (f f' : MFace) (hu : f'.up = f.dn) (hd : f'.dn = f.up)
    (TP G T : ℝ) (k : ℤ) (ne : f.up ≠ f.dn) (mv : driving c f TP G ≠ 0) :
    entryOf c f' (-TP) (-G) (-T) k = -entryOf c f TP G T k := by
  have z : (0.0:ℝ) = 0 := by norm_num
  have hden : denAvgJ c f' = denAvgJ c f := by
    unfold denAvgJ; rw [hu, hd, add_right_comm]
  have hdr : drivingJ c f' (-TP) (-G) = -drivingJ c f TP G := by
    unfold drivingJ; rw [hden]; ring
  rw [← driving_eq] at mv
  have hiff : drivingJ c f' (-TP) (-G) < 0.0 ↔ ¬ drivingJ c f TP G < 0.0 := by
    rw [hdr, z, not_lt, neg_lt_zero]
    exact ⟨fun hp => hp.le, fun hp => lt_of_le_of_ne hp (Ne.symm mv)⟩
  have hsh : shutJ c f' (-TP) (-G) ↔ shutJ c f TP G := by
    unfold shutJ
    by_cases hd' : drivingJ c f TP G < 0.0
    · rw [if_pos hd', if_neg (by rw [hiff]; exact fun k => k hd'), hd]
    · rw [if_neg hd', if_pos (hiff.2 hd'), hu]
  have huk : ukvrJ c f' (-TP) (-G) = ukvrJ c f TP G := by
    unfold ukvrJ
    by_cases hd' : drivingJ c f TP G < 0.0
    · rw [if_pos hd', if_neg (by rw [hiff]; exact fun k => k hd'), hd]
    · rw [if_neg hd', if_pos (hiff.2 hd'), hu]
  have hdu : dukvrUp c f' (-TP) (-G) = dukvrDn c f TP G := by
    unfold dukvrUp dukvrDn
    by_cases hd' : drivingJ c f TP G < 0.0
    · rw [if_pos hd', if_neg (by rw [hiff]; exact fun k => k hd')]
    · rw [if_neg hd', if_pos (hiff.2 hd'), hu]
  have hdd : dukvrDn c f' (-TP) (-G) = dukvrUp c f TP G := by
    unfold dukvrUp dukvrDn
    by_cases hd' : drivingJ c f TP G < 0.0
    · rw [if_pos hd', if_neg (by rw [hiff]; exact fun k => k hd'), hd]
    · rw [if_neg hd', if_pos (hiff.2 hd')]
  have hown : ownPart c f' (-TP) (-G) k = -ownPart c f TP G k := by
    unfold ownPart
    rw [hden, huk, hdu, hdd, hu, hd]
    by_cases h1 : f.up > -1 ∧ k = f.up
    · have h2 : ¬ (f.dn > -1 ∧ k = f.dn) := fun h => ne (by rw [← h1.2, ← h.2])
      rw [if_neg h2, if_pos h1, if_pos h1]; ring
    · by_cases h2 : f.dn > -1 ∧ k = f.dn
      · rw [if_pos h2, if_neg h1, if_pos h2]; ring
      · rw [if_neg h2, if_neg h1, if_neg h1, if_neg h2, neg_zero]
  unfold entryOf
  by_cases hs : shutJ c f TP G
  · rw [if_pos hs, if_pos (hsh.2 hs), neg_zero]
  · rw [if_neg hs, if_neg (fun k => hs (hsh.1 k)), hown, huk, hden]; ring

theorem dden_side (c : Ctx) (id : ℤ) :
    dden c id = if 0 ≤ id then 0.5*(side c id).drho else 0.0 := by
  unfold dden side
  split <;> rfl

/-- An entry reads only what the two sides hold. -/
theorem entryOf_sides (f F : MFace) (hbc : l.bc = g.bc) (hpr : l.Pref = g.Pref)
    (su : side l f.up = side g F.up) (sd : side l f.dn = side g F.dn)
    (nu : f.up < 0 ↔ F.up < 0) (nd : f.dn < 0 ↔ F.dn < 0) (TP G T : ℝ) (k K : ℤ)
    (ku : (f.up > -1 ∧ k = f.up) ↔ (F.up > -1 ∧ K = F.up))
    (kd : (f.dn > -1 ∧ k = f.dn) ↔ (F.dn > -1 ∧ K = F.dn)) :
    entryOf l f TP G T k = entryOf g F TP G T K := by
  have pu : 0 ≤ f.up ↔ 0 ≤ F.up := by omega
  have pd : 0 ≤ f.dn ↔ 0 ≤ F.dn := by omega
  have hden : denAvgJ l f = denAvgJ g F := by unfold denAvgJ; rw [su, sd]
  have hdr : drivingJ l f TP G = drivingJ g F TP G := by unfold drivingJ; rw [hden]
  have huk : ukvrJ l f TP G = ukvrJ g F TP G := by unfold ukvrJ; rw [hdr, su, sd]
  have hdu : dukvrUp l f TP G = dukvrUp g F TP G := by
    unfold dukvrUp; rw [hdr, su]; simp only [pu]
  have hdd : dukvrDn l f TP G = dukvrDn g F TP G := by
    unfold dukvrDn; rw [hdr, sd]; simp only [pd]
  have hsh : shutJ l f TP G ↔ shutJ g F TP G := by
    unfold shutJ; rw [hdr, hbc, hpr, su, sd, nu, nd]
  have h1 : dden l f.up = dden g F.up := by rw [dden_side, dden_side, su]; simp only [pu]
  have h2 : dden l f.dn = dden g F.dn := by rw [dden_side, dden_side, sd]; simp only [pd]
  have hown : ownPart l f TP G k = ownPart g F TP G K := by
    unfold ownPart
    rw [hden, huk, hdu, hdd, h1, h2]
    simp only [ku, kd]
  unfold entryOf
  by_cases hs : shutJ g F TP G
  · rw [if_pos hs, if_pos (hsh.2 hs)]
  · rw [if_neg hs, if_neg (fun k => hs (hsh.1 k)), hown, huk, hden]

theorem jacValue_seen (own : OwnsAll g) (h : Sees g l w) (hj : SeesJac g l w) (ag : Addressed g)
    (al : Addressed l) (mv : Moving g l w) (junk Junk : Nat → Nat → ℝ) (v i : Nat)
    (hs : LocalSubface l v i) (hf : (faceOf l v i).isLocal = true) (k : Nat)
    (hk : k < (l.vert v).nCells) :
    jacValue l junk v i k =
      w.sign v i*jacValue g Junk (w.vert v) (w.row v i) (w.around v k) := by
  have hg := seen_local own h v i hs
  have ou := h.upOk v i hs
  have od := h.dnOk v i hs
  have hkc := (hj.lt v hs.1.1 hs.2 k hk).1
  unfold jacValue jacTP
  rw [if_pos hf, if_pos (own.face _), jacEntry_split, jacEntry_split,
    ttimesP_seen own h ag al v i hs, h.grav v i hs, hj.trans v i hs k hk,
    hj.same v hs.1.1 hs.2 k hk]
  have cellOf : ∀ id : ℤ, SideOk l id →
      ((id > -1 ∧ (((l.vert v).cell k : Nat) : ℤ) = id) ↔
        (w.side id > -1 ∧ ((w.cell ((l.vert v).cell k) : Nat) : ℤ) = w.side id)) := by
    intro id hid
    have t := side_cell h id hid _ hkc
    constructor
    · rintro ⟨p, q⟩
      have := t.1 ⟨by omega, by omega⟩
      exact ⟨by omega, this.symm⟩
    · rintro ⟨p, q⟩
      have := t.2 q.symm
      exact ⟨by omega, by omega⟩
  cases hfl : w.flip v i
  · obtain ⟨e1, e2⟩ := h.sides v i hs hfl
    have hsg : w.sign v i = 1 := by simp [View.sign, hfl]
    rw [hsg, one_mul, one_mul, one_mul, one_mul]
    congr 1
    exact entryOf_sides _ _ h.bc h.pref
      (by rw [side_seen h _ ou, e1]) (by rw [side_seen h _ od, e2])
      (by rw [← e1, side_neg]) (by rw [← e2, side_neg]) _ _ _ _ _
      (by rw [← e1]; exact cellOf _ ou) (by rw [← e2]; exact cellOf _ od)
  · obtain ⟨e1, e2⟩ := h.flipped v i hs hfl
    have hsg : w.sign v i = -1 := by simp [View.sign, hfl]
    rw [hsg, neg_one_mul, neg_one_mul, neg_one_mul, neg_one_mul]
    congr 1
    refine Eq.trans ?_ (entryOf_flip g (faceOf g (w.vert v) (w.row v i))
      ⟨(faceOf g (w.vert v) (w.row v i)).dn, (faceOf g (w.vert v) (w.row v i)).up, true⟩ rfl rfl
      _ _ _ _ (hj.ne _ _ hg.1) (mv v i hs hfl))
    exact entryOf_sides _ _ h.bc h.pref
      (by rw [side_seen h _ ou, e1]) (by rw [side_seen h _ od, e2])
      (by rw [← e1, side_neg]) (by rw [← e2, side_neg]) _ _ _ _ _
      (by rw [← e1]; exact cellOf _ ou) (by rw [← e2]; exact cellOf _ od)

/-- The columns of a row of the Jacobian. -/
theorem columns_seen (own : OwnsAll g) (h : Sees g l w) (hj : SeesJac g l w) (ag : Addressed g)
    (al : Addressed l) (mv : Moving g l w) (junk Junk : Nat → Nat → ℝ) (v i : Nat)
    (hs : LocalSubface l v i) (hf : (faceOf l v i).isLocal = true) (b : Nat)
    (hb : b < l.numCells) :
    (∑ k ∈ range (l.vert v).nCells,
      if b = (l.vert v).cell k then jacValue l junk v i k else 0) =
    w.sign v i*∑ K ∈ range (g.vert (w.vert v)).nCells,
      if w.cell b = (g.vert (w.vert v)).cell K then
        jacValue g Junk (w.vert v) (w.row v i) K else 0 := by
  have im : (range (l.vert v).nCells).image (w.around v) = range (g.vert (w.vert v)).nCells := by
    apply eq_of_subset_of_card_le
    · intro K hK
      obtain ⟨k, hk, rfl⟩ := mem_image.1 hK
      exact mem_range.2 (hj.lt v hs.1.1 hs.2 k (mem_range.1 hk)).2
    · rw [card_image_of_injOn, card_range, card_range, hj.cells v hs.1.1 hs.2]
      intro k hk k' hk' e
      exact hj.inj v hs.1.1 hs.2 k (mem_range.1 hk) k' (mem_range.1 hk') e
  rw [← im, sum_image, mul_sum]
  · refine sum_congr rfl fun k hk => ?_
    have hk' := mem_range.1 hk
    rw [hj.same v hs.1.1 hs.2 k hk']
    have hiff : b = (l.vert v).cell k ↔ w.cell b = w.cell ((l.vert v).cell k) :=
      ⟨fun e => by rw [← e], fun e => h.cellInj _ hb _ (hj.lt v hs.1.1 hs.2 k hk').1 e⟩
    by_cases hc : b = (l.vert v).cell k
    · rw [if_pos hc, if_pos (hiff.1 hc)]
      exact jacValue_seen own h hj ag al mv junk Junk v i hs hf k hk'
    · rw [if_neg hc, if_neg (fun e => hc (hiff.2 e)), mul_zero]
  · intro k hk k' hk' e
    exact hj.inj v hs.1.1 hs.2 k (mem_range.1 hk) k' (mem_range.1 hk') e

theorem jacTerm_seen (own : OwnsAll g) (h : Sees g l w) (hj : SeesJac g l w) (ag : Addressed g)
    (al : Addressed l) (mv : Moving g l w) (junk Junk : Nat → Nat → ℝ) (a : Nat)
    (ha : a < l.numCells) (hl : l.isLocal a = true) (b : Nat) (hb : b < l.numCells) (v i : Nat)
    (hs : LocalSubface l v i) :
    jacTerm l junk v i a b =
      jacTerm g Junk (w.vert v) (w.row v i) (w.cell a) (w.cell b) := by
  have ou := h.upOk v i hs
  have od := h.dnOk v i hs
  have loc : ∀ id : ℤ, (0 ≤ id ∧ l.isLocal id.toNat = true ∧ a = id.toNat) ↔
      (0 ≤ id ∧ a = id.toNat) := by
    intro id
    constructor
    · rintro ⟨x, _, z⟩; exact ⟨x, z⟩
    · rintro ⟨x, z⟩; exact ⟨x, by rw [← z]; exact hl, z⟩
  have glo : ∀ id : ℤ, (0 ≤ id ∧ g.isLocal id.toNat = true ∧ w.cell a = id.toNat) ↔
      id = w.cell a := by
    intro id
    rw [own.cell]
    simp only [true_and]
    omega
  have neu : (l.bc = .neumann ∧ ((faceOf l v i).up < 0 ∨ (faceOf l v i).dn < 0)) ↔
      (g.bc = .neumann ∧ ((faceOf g (w.vert v) (w.row v i)).up < 0 ∨
        (faceOf g (w.vert v) (w.row v i)).dn < 0)) := by
    rw [h.bc]
    cases hf : w.flip v i
    · obtain ⟨e1, e2⟩ := h.sides v i hs hf
      rw [← e1, ← e2, side_neg, side_neg]
    · obtain ⟨e1, e2⟩ := h.flipped v i hs hf
      rw [← e1, ← e2, side_neg, side_neg, or_comm (a := (faceOf l v i).up < 0)]
  unfold jacTerm
  dsimp only
  by_cases hn : l.bc = .neumann ∧ ((faceOf l v i).up < 0 ∨ (faceOf l v i).dn < 0)
  · rw [if_pos hn, if_pos (neu.1 hn)]
  rw [if_neg hn, if_neg (fun k => hn (neu.2 k))]
  simp only [loc, glo, side_cell h _ ou a ha, side_cell h _ od a ha]
  by_cases hact : (faceOf l v i).isLocal = true
  · have hc := columns_seen own h hj ag al mv junk Junk v i hs hact b hb
    have hc' : (∑ k ∈ range (l.vert v).nCells,
        if b = (l.vert v).cell k then -jacValue l junk v i k else 0) =
      -∑ k ∈ range (l.vert v).nCells,
        if b = (l.vert v).cell k then jacValue l junk v i k else 0 := by
      rw [← sum_neg_distrib]
      exact sum_congr rfl fun k _ => by split <;> simp
    have hg' : (∑ K ∈ range (g.vert (w.vert v)).nCells,
        if w.cell b = (g.vert (w.vert v)).cell K then
          -jacValue g Junk (w.vert v) (w.row v i) K else 0) =
      -∑ K ∈ range (g.vert (w.vert v)).nCells,
        if w.cell b = (g.vert (w.vert v)).cell K then
          jacValue g Junk (w.vert v) (w.row v i) K else 0 := by
      rw [← sum_neg_distrib]
      exact sum_congr rfl fun k _ => by split <;> simp
    rw [hc', hg', hc]
    cases hf : w.flip v i
    · obtain ⟨e1, e2⟩ := h.sides v i hs hf
      have hsg : w.sign v i = 1 := by simp [View.sign, hf]
      rw [e1, e2, hsg, one_mul]
    · obtain ⟨e1, e2⟩ := h.flipped v i hs hf
      have hsg : w.sign v i = -1 := by simp [View.sign, hf]
      rw [e1, e2, hsg, neg_one_mul, neg_neg, add_comm]
  · have n1 : ¬ w.side (faceOf l v i).up = w.cell a := by
      rw [← side_cell h _ ou a ha]
      rintro ⟨x, y⟩
      exact hact (h.touch v i hs.1 (Or.inl ⟨x, by rw [← y]; exact hl⟩)).2
    have n2 : ¬ w.side (faceOf l v i).dn = w.cell a := by
      rw [← side_cell h _ od a ha]
      rintro ⟨x, y⟩
      exact hact (h.touch v i hs.1 (Or.inr ⟨x, by rw [← y]; exact hl⟩)).2
    rw [if_neg n1, if_neg n2]
    cases hf : w.flip v i
    · obtain ⟨e1, e2⟩ := h.sides v i hs hf
      rw [if_neg (by rw [← e1]; exact n1), if_neg (by rw [← e2]; exact n2)]
    · obtain ⟨e1, e2⟩ := h.flipped v i hs hf
      rw [if_neg (by rw [← e2]; exact n2), if_neg (by rw [← e1]; exact n1)]

theorem ijacobian_seen (own : OwnsAll g) (h : Sees g l w) (hj : SeesJac g l w) (ag : Addressed g)
    (al : Addressed l) (mv : Moving g l w) (junk Junk : Nat → Nat → ℝ) (a : Nat)
    (ha : a < l.numCells) (hl : l.isLocal a = true) (b : Nat) (hb : b < l.numCells) :
    ∑ v ∈ range l.numVertices, ∑ i ∈ range (l.vert v).nRows, jacTerm l junk v i a b =
    ∑ V ∈ range g.numVertices, ∑ I ∈ range (g.vert V).nRows,
      jacTerm g Junk V I (w.cell a) (w.cell b) := by
  classical
  set S := (range l.numVertices).filter (fun v => (l.vert v).isLocal = true) with hS
  have memS : ∀ v, v ∈ S ↔ v < l.numVertices ∧ (l.vert v).isLocal = true := by
    intro v; rw [hS, mem_filter, mem_range]
  have left : ∑ v ∈ range l.numVertices, ∑ i ∈ range (l.vert v).nRows, jacTerm l junk v i a b =
      ∑ v ∈ S, ∑ i ∈ range (l.vert v).nRows, jacTerm l junk v i a b := by
    rw [hS, sum_filter]
    refine sum_congr rfl fun v hv => ?_
    split
    · rfl
    · rename_i hvl
      refine sum_eq_zero fun i hi => ?_
      have hsub : IsSubface l v i := ⟨mem_range.1 hv, mem_range.1 hi⟩
      unfold jacTerm
      dsimp only
      split
      · rfl
      · rw [if_neg (fun k => hvl (h.touch v i hsub (Or.inl ⟨k.1, k.2.1⟩)).1),
          if_neg (fun k => hvl (h.touch v i hsub (Or.inr ⟨k.1, k.2.1⟩)).1), add_zero]
  have right : ∑ V ∈ range g.numVertices, ∑ I ∈ range (g.vert V).nRows,
      jacTerm g Junk V I (w.cell a) (w.cell b) =
      ∑ V ∈ S.image w.vert, ∑ I ∈ range (g.vert V).nRows,
      jacTerm g Junk V I (w.cell a) (w.cell b) := by
    symm
    apply sum_subset
    · intro V hV
      obtain ⟨v, hv, rfl⟩ := mem_image.1 hV
      exact mem_range.2 (h.vertLt v ((memS v).1 hv).1 ((memS v).1 hv).2)
    · intro V hV hn
      refine sum_eq_zero fun I hI => ?_
      have hsub : IsSubface g V I := ⟨mem_range.1 hV, mem_range.1 hI⟩
      have no : ¬ ((faceOf g V I).up = w.cell a ∨ (faceOf g V I).dn = w.cell a) := by
        intro k
        obtain ⟨v, hv, hvl, e⟩ := h.cover a ha hl V I hsub k
        exact hn (mem_image.2 ⟨v, (memS v).2 ⟨hv, hvl⟩, e⟩)
      unfold jacTerm
      dsimp only
      split
      · rfl
      · rw [if_neg (fun k => no (Or.inl (by omega))), if_neg (fun k => no (Or.inr (by omega))),
          add_zero]
  rw [left, right, sum_image]
  · refine sum_congr rfl fun v hv => ?_
    have hv' := (memS v).1 hv
    have hsub : ∀ i ∈ range (l.vert v).nRows, LocalSubface l v i :=
      fun i hi => ⟨⟨hv'.1, mem_range.1 hi⟩, hv'.2⟩
    rw [sum_congr rfl fun i hi =>
      jacTerm_seen own h hj ag al mv junk Junk a ha hl b hb v i (hsub i hi)]
    have im : (range (l.vert v).nRows).image (w.row v) = range (g.vert (w.vert v)).nRows := by
      apply eq_of_subset_of_card_le
      · intro I hI
        obtain ⟨i, hi, rfl⟩ := mem_image.1 hI
        exact mem_range.2 (h.rowLt v i (hsub i hi))
      · rw [card_image_of_injOn, card_range, card_range, h.rows v hv'.1 hv'.2]
        intro i hi i' hi' e
        exact h.rowInj v i i' (hsub i hi) (hsub i' hi') e
    rw [← im, sum_image]
    intro i hi i' hi' e
    exact h.rowInj v i i' (hsub i hi) (hsub i' hi') e
  · intro v hv v' hv' e
    exact h.vertInj v ((memS v).1 hv).1 v' ((memS v').1 hv').1 ((memS v).1 hv).2 ((memS v').1 hv').2 e

end

/-- C186 for the matrix of a Newton step with backward Euler: the row of a cell a process owns. -/
theorem C186_snes_matrix (g l : Ctx) (w : View) (own : OwnsAll g) (h : Sees g l w)
    (hj : SeesJac g l w) (ag : Addressed g) (al : Addressed l) (mv : Moving g l w)
    (junk Junk : Nat → Nat → ℝ) (a : Nat) (ha : a < l.numCells) (hl : l.isLocal a = true)
    (b : Nat) (hb : b < l.numCells) (dtime : ℝ) :
    snesJacobian l junk dtime a b = snesJacobian g Junk dtime (w.cell a) (w.cell b) := by
  rw [snesJacobian_apply, snesJacobian_apply,
    ijacobian_seen own h hj ag al mv junk Junk a ha hl b hb]
  congr 1
  obtain ⟨e1, e2, e3, -⟩ := h.cells a ha
  by_cases hab : a = b
  · rw [if_pos ⟨hab, ha, hl⟩, if_pos ⟨by rw [hab], h.cellLt a ha, own.cell _⟩]
    unfold dmassdP
    rw [e1, e2, e3]
  · rw [if_neg (fun k => hab k.1), if_neg (fun k => hab (h.cellInj a ha b hb k.1))]

/-- C186 for the matrix of the time-stepping form. -/
theorem C186_ts_matrix (g l : Ctx) (w : View) (own : OwnsAll g) (h : Sees g l w)
    (hj : SeesJac g l w) (ag : Addressed g) (al : Addressed l) (mv : Moving g l w)
    (junk Junk : Nat → Nat → ℝ) (a : Nat) (ha : a < l.numCells) (hl : l.isLocal a = true)
    (b : Nat) (hb : b < l.numCells) (shift : ℝ) (dpdt Dpdt : Nat → ℝ)
    (hd : dpdt a = Dpdt (w.cell a)) :
    tsJacobian l junk shift dpdt a b = tsJacobian g Junk shift Dpdt (w.cell a) (w.cell b) := by
  rw [tsJacobian_apply, tsJacobian_apply,
    ijacobian_seen own h hj ag al mv junk Junk a ha hl b hb]
  congr 1
  obtain ⟨e1, e2, e3, -⟩ := h.cells a ha
  obtain ⟨e5, e6⟩ := hj.second a ha
  by_cases hab : a = b
  · rw [if_pos ⟨hab, ha, hl⟩, if_pos ⟨by rw [hab], h.cellLt a ha, own.cell _⟩]
    unfold tsJacAccum d2massdP2 dmassdP
    rw [e1, e2, e3, e5, e6, hd]
  · rw [if_neg (fun k => hab k.1), if_neg (fun k => hab (h.cellInj a ha b hb k.1))]

/-- The rest of the row is zero: a process needs no column of a cell it does not see. -/
theorem C186_other_columns (g l : Ctx) (w : View) (h : Sees g l w)
    (hj : SeesJac g l w) (Junk : Nat → Nat → ℝ) (a : Nat) (ha : a < l.numCells)
    (hl : l.isLocal a = true) (B : Nat) (hB : ∀ b < l.numCells, w.cell b ≠ B) (dtime : ℝ) :
    snesJacobian g Junk dtime (w.cell a) B = 0 := by
  rw [snesJacobian_apply, if_neg (fun k => hB a ha k.1), add_zero]
  refine sum_eq_zero fun V hV => sum_eq_zero fun I hI => ?_
  have hsub : IsSubface g V I := ⟨mem_range.1 hV, mem_range.1 hI⟩
  have zero : (faceOf g V I).up = w.cell a ∨ (faceOf g V I).dn = w.cell a →
      ∀ K < (g.vert V).nCells, B ≠ (g.vert V).cell K := by
    intro k K hK e
    obtain ⟨v, hv, hvl, rfl⟩ := h.cover a ha hl V I hsub k
    have im : (range (l.vert v).nCells).image (w.around v) = range (g.vert (w.vert v)).nCells := by
      apply eq_of_subset_of_card_le
      · intro K hK
        obtain ⟨k, hk, rfl⟩ := mem_image.1 hK
        exact mem_range.2 (hj.lt v hv hvl k (mem_range.1 hk)).2
      · rw [card_image_of_injOn, card_range, card_range, hj.cells v hv hvl]
        intro k hk k' hk' e
        exact hj.inj v hv hvl k (mem_range.1 hk) k' (mem_range.1 hk') e
    have hK' := mem_range.2 hK
    rw [← im] at hK'
    obtain ⟨k', hk', rfl⟩ := mem_image.1 hK'
    rw [hj.same v hv hvl k' (mem_range.1 hk')] at e
    exact hB _ (hj.lt v hv hvl k' (mem_range.1 hk')).1 e.symm
  unfold jacTerm
  dsimp only
  split
  · rfl
  · have s1 : ∀ (F : Nat → ℝ), (faceOf g V I).up = w.cell a ∨ (faceOf g V I).dn = w.cell a →
        (∑ K ∈ range (g.vert V).nCells, if B = (g.vert V).cell K then F K else 0) = 0 :=
      fun F k => sum_eq_zero fun K hK => if_neg (zero k K (mem_range.1 hK))
    have t1 : ∀ (p : Prop) [Decidable p] (x : ℝ), (p → x = 0) → (if p then x else 0) = 0 := by
      intro p _ x hx
      split
      · rename_i hp; exact hx hp
      · rfl
    rw [t1 _ _ (fun k => s1 _ (Or.inl (by omega))), t1 _ _ (fun k => s1 _ (Or.inr (by omega))),
      add_zero]

/-! ### A mesh on two processes

The second process of a run with the mesh of `FluxWitness`: it owns cell 1, which is its cell 0,
and sees cell 0 as its cell 1.  It lists the subfaces in the other order and names the sides of
both in the other order. -/

namespace ParallelWitness

def M : Nat → Nat → ℝ
  | 0, 0 => 1
  | 0, 2 => -1
  | 1, 0 => -1
  | 1, 1 => 1
  | _, _ => 0

def face : Nat → MFace
  | 0 => ⟨-1, 0, true⟩
  | _ => ⟨0, 1, true⟩

def v : Vert :=
  { isLocal := true, nRows := 2, face := id, subface := fun _ => 0, wsub := fun _ => 0, nCells := 2
    cell := id, T := M, nCols := 3, col := id, M := M }

def l : Ctx :=
  { numVertices := 1, numCells := 2, numBnd := 1, vert := fun _ => v, face := face
    isLocal := fun a => a == 0, vol := fun _ => 2, por := fun _ => 1, source := fun _ => 0
    cells := fun j => match j with
      | 0 => FluxWitness.s 3
      | _ => FluxWitness.s 5
    d2S := fun _ => 0, d2rho := fun _ => 0, bnds := fun _ => FluxWitness.s 2, bc := .dirichlet
    Pref := 0, grav := fun _ => 0 }

def w : View :=
  { cell := fun a => 1 - a, bnd := id, vert := id, row := fun _ i => 1 - i
    flip := fun _ _ => true, around := fun _ k => 1 - k }

theorem subface (v i : Nat) (hs : LocalSubface l v i) : v = 0 ∧ (i = 0 ∨ i = 1) := by
  obtain ⟨⟨h1, h2⟩, -⟩ := hs
  simp only [l, ParallelWitness.v] at h1 h2
  omega

theorem addressed : Addressed l := by
  refine ⟨?_, fun v i hs => rfl, ?_⟩
  · intro v i v' i' hs hs' e
    simp only [slot, l, ParallelWitness.v, id] at e
    have := subface v i hs
    have := subface v' i' hs'
    omega
  · intro v hv _ j hj
    simp only [l, ParallelWitness.v, id] at hj ⊢
    omega

theorem addressed_all : Addressed FluxWitness.c := by
  refine ⟨?_, fun v i hs => rfl, ?_⟩
  · intro v i v' i' hs hs' e
    simp only [slot, FluxWitness.c, FluxWitness.v, id] at e
    have h1 := hs.1.1
    have h2 := hs'.1.1
    simp only [FluxWitness.c] at h1 h2
    omega
  · intro v hv _ j hj
    simp only [FluxWitness.c, FluxWitness.v, id] at hj ⊢
    omega

theorem sees : Sees FluxWitness.c l w := by
  constructor
  case cellLt => intro a ha; simp only [w, FluxWitness.c, l] at *; omega
  case cellInj => intro a ha b hb e; simp only [w, l] at *; omega
  case cells =>
    intro a ha
    have : a = 0 ∨ a = 1 := by simp only [l] at ha; omega
    rcases this with rfl | rfl <;> exact ⟨rfl, rfl, rfl, rfl⟩
  case bndLt => intro b hb; exact hb
  case bnds => intro b hb; rfl
  case bc => rfl
  case pref => rfl
  case vertLt => intro v hv _; exact hv
  case vertInj => intro v _ v' _ _ _ e; exact e
  case rows => intro v _ _; rfl
  case rowLt =>
    intro v i hs
    simp only [w, FluxWitness.c, FluxWitness.v]
    omega
  case rowInj =>
    intro v i i' hs hs' e
    have := subface v i hs
    have := subface v i' hs'
    simp only [w] at e
    omega
  case upOk =>
    intro v i hs
    obtain ⟨rfl, rfl | rfl⟩ := subface v i hs <;>
      simp [SideOk, faceOf, l, ParallelWitness.v, face]
  case dnOk =>
    intro v i hs
    obtain ⟨rfl, rfl | rfl⟩ := subface v i hs <;>
      simp [SideOk, faceOf, l, ParallelWitness.v, face]
  case sides => intro v i hs hf; simp [w] at hf
  case flipped =>
    intro v i hs hf
    obtain ⟨rfl, rfl | rfl⟩ := subface v i hs <;>
      simp [View.side, w, faceOf, l, ParallelWitness.v, face, FluxWitness.c, FluxWitness.v,
        FluxWitness.face]
  case grav => intro v i hs; simp [l, FluxWitness.c]
  case trans =>
    intro v i hs J
    have hJ : J = 0 ∨ J = 1 ∨ J = 2 ∨ 3 ≤ J := by omega
    obtain ⟨rfl, rfl | rfl⟩ := subface v i hs <;>
      rcases hJ with rfl | rfl | rfl | hJ <;>
      simp [View.column, View.sign, w, l, ParallelWitness.v, M, FluxWitness.c, FluxWitness.v,
        FluxWitness.M, sum_range_succ]
    · rw [if_neg (by omega), if_neg (by omega), if_neg (by omega), add_zero]
    · rw [if_neg (by omega), if_neg (by omega), if_neg (by omega), add_zero]
  case touch =>
    intro v i hs _
    refine ⟨rfl, ?_⟩
    obtain ⟨-, rfl | rfl⟩ := subface v i ⟨hs, rfl⟩ <;> rfl
  case cover => intro a ha hl V I hs _; exact ⟨V, hs.1, rfl, rfl⟩

theorem seesJac : SeesJac FluxWitness.c l w := by
  constructor
  case cells => intro v _ _; rfl
  case lt =>
    intro v _ _ k hk
    simp only [l, w, ParallelWitness.v, FluxWitness.c, FluxWitness.v, id] at *
    omega
  case inj =>
    intro v _ _ k hk k' hk' e
    simp only [l, w, ParallelWitness.v] at *
    omega
  case same =>
    intro v _ _ k hk
    simp only [l, w, ParallelWitness.v, FluxWitness.c, FluxWitness.v, id]
  case trans =>
    intro v i hs k hk
    have hk' : k = 0 ∨ k = 1 := by simp only [l, ParallelWitness.v] at hk; omega
    obtain ⟨rfl, rfl | rfl⟩ := subface v i hs <;> rcases hk' with rfl | rfl <;>
      simp [View.sign, w, l, ParallelWitness.v, M, FluxWitness.c, FluxWitness.v, FluxWitness.M]
  case ne =>
    intro V I hs
    have hI : I = 0 ∨ I = 1 := by
      have := hs.2; simp only [FluxWitness.c, FluxWitness.v] at this; omega
    rcases hI with rfl | rfl <;>
      simp [faceOf, FluxWitness.c, FluxWitness.v, FluxWitness.face]
  case second => intro a _; exact ⟨rfl, rfl⟩

theorem moving : Moving FluxWitness.c l w := by
  intro v i hs _
  have e0 : slot FluxWitness.v 0 = 0 := rfl
  have e4 : slot FluxWitness.v 1 = 4 := rfl
  obtain ⟨rfl, rfl | rfl⟩ := subface v i hs
  · change driving FluxWitness.c (FluxWitness.face 1) (ttimesP FluxWitness.c 4) 0 ≠ 0
    rw [FluxWitness.ttimesP_4]
    unfold driving
    norm_num
  · change driving FluxWitness.c (FluxWitness.face 0) (ttimesP FluxWitness.c 0) 0 ≠ 0
    rw [FluxWitness.ttimesP_0]
    unfold driving
    norm_num

end ParallelWitness

/-- The second process computes for its cell, which is cell 1 of the mesh, what a single process
computes: 2 flow in from cell 0, 1 flows out. -/
example : tsFunction ParallelWitness.l (fun _ => 0) 0 = tsFunction FluxWitness.c (fun _ => 0) 1 ∧
    snesJacobian ParallelWitness.l (fun _ _ => 0) 1 0 1 =
      snesJacobian FluxWitness.c (fun _ _ => 0) 1 1 0 :=
  ⟨C186_ts _ _ _ FluxWitness.ownsAll ParallelWitness.sees ParallelWitness.addressed_all
    ParallelWitness.addressed 0 (by decide) rfl _ _ rfl,
   C186_snes_matrix _ _ _ FluxWitness.ownsAll ParallelWitness.sees ParallelWitness.seesJac
    ParallelWitness.addressed_all ParallelWitness.addressed ParallelWitness.moving _ _ 0
    (by decide) rfl 1 (by decide) 1⟩

end

end TDy.Mpfao.Props
