import Verif.Proofs.MeshLevels
import Verif.Proofs.MeshCube

/-!
# C139-C142: the order of cells and faces around a vertex

`src/fv/share/tdymeshplex.c`: the cells of a vertex are split into those above and those below it,
brought into circular order, and connected with each other and with boundary faces; the position of
a connection in the list is the number of the face in the local problem of the vertex.
-/

namespace TDy.Traverse.Props

open TDy.Traverse TDy.Traverse.Spec TDy.Traverse.Proofs

variable {m : TMesh} {v : Nat}

/-! ### C139 order of cells -/

/-- Whatever order is delivered, it consists of the given cells, and each is a neighbour of the
next. -/
theorem C139_neighbours {cells out : List Nat} (hn : cells.Nodup)
    (h : circularOrder m cells = .ok out) :
    out.Perm cells ∧ ∀ i c d, out[i]? = some c → out[i + 1]? = some d → Neighbours m c d :=
  circular_sound hn h

/-- The cells around an inner vertex are put into the order of the ring, whatever order they come
in. -/
theorem C139_ring {cells l : List Nat} (hl : Ring m l) (hp : cells.Perm l) :
    ∃ out, circularOrder m cells = .ok out ∧ out.Perm cells ∧ Ring m out := circular_ring hl hp

/-- The cells around a vertex on a side are put into the order of the chain, from one end to the
other. -/
theorem C139_chain {cells l : List Nat} (hl : Chain m l) (hp : cells.Perm l) :
    ∃ out, circularOrder m cells = .ok out ∧ out.Perm cells ∧ Chain m out := circular_chain hl hp

theorem sharedFace_eq (ha : Around m v) {x c d : Nat} (hx : x ∈ m.vFaces v) (hcd : c ≠ d)
    (hc : Side m x c) (hd : Side m x d) : sharedFace m v c d = x := by
  have key : ∀ y ∈ m.vFaces v, (((m.faceCells y).1 == (c : ℤ) || (m.faceCells y).1 == (d : ℤ)) &&
      ((m.faceCells y).2 == (c : ℤ) || (m.faceCells y).2 == (d : ℤ))) = true ↔ y = x := by
    intro y hy
    constructor
    · intro h
      simp only [Bool.and_eq_true, Bool.or_eq_true, beq_iff_eq] at h
      cases hint : m.faceInternal y with
      | true =>
        obtain ⟨a, _, b, _, hab, hf⟩ := ha.internal y hy hint
        rw [hf] at h
        simp only [Nat.cast_inj] at h
        refine ha.single y hy x hx c d hcd ?_ ?_ hc hd <;> unfold Side <;> rw [hf] <;>
          simp only [Nat.cast_inj] <;> omega
      | false =>
        obtain ⟨a, _, k, hk, hf | hf⟩ := ha.boundary y hy hint <;> rw [hf] at h <;>
          simp only at h <;> omega
    · rintro rfl
      have hint := internal_of_sides ha hx hcd hc hd
      obtain ⟨a, _, b, _, hab, hf⟩ := ha.internal y hy hint
      unfold Side at hc hd
      rw [hf] at hc hd ⊢
      simp only [Nat.cast_inj] at hc hd
      simp only [Bool.and_eq_true, Bool.or_eq_true, beq_iff_eq, Nat.cast_inj]
      omega
  unfold sharedFace
  cases hf : (m.vFaces v).find? fun f =>
    ((m.faceCells f).1 == (c : ℤ) || (m.faceCells f).1 == (d : ℤ)) &&
    ((m.faceCells f).2 == (c : ℤ) || (m.faceCells f).2 == (d : ℤ)) with
  | none =>
    rw [List.find?_eq_none] at hf
    exact absurd ((key x hx).2 rfl) (hf x hx)
  | some y =>
    have h1 := List.mem_of_find?_eq_some hf
    have h2 := List.find?_some hf
    exact (key y h1).1 h2

theorem antiClock_iff (a b c : Geo.P3) : antiClock a b c = true ↔ 0 < turn a b c := by
  unfold antiClock turn Geo.cross
  rw [decide_eq_true_eq]
  norm_num

/-- Cells that are listed in clockwise or anticlockwise order are listed in anticlockwise order in
the end. -/
theorem C139_anticlockwise (ha : Around m v) {o out : List Nat} (hn : o.Nodup)
    (hnb : ∀ i c d, o[i]? = some c → o[i + 1]? = some d → ∃ x ∈ m.vFaces v, Side m x c ∧ Side m x d)
    (h : antiClockwise m v o = .ok out) (ht : Turning m v o 1 ∨ Turning m v o (-1)) :
    Turning m v out 1 := by
  match o, h with
  | c :: d :: l, h =>
    have hcd : c ≠ d := by
      intro e; subst e; simp at hn
    obtain ⟨x, hx, sc, sd⟩ := hnb 0 c d rfl rfl
    unfold antiClockwise at h
    dsimp only at h
    rw [sharedFace_eq ha hx hcd sc sd] at h
    have ht' : Turning m v (c :: d :: l) (-1) → ¬ 0 < turn (m.coord v) (m.cellCen c) (m.faceCen x) := by
      intro hh hpos
      have := (hh 0 c d x rfl rfl hx sc sd).1
      linarith
    have ht1 : Turning m v (c :: d :: l) 1 → 0 < turn (m.coord v) (m.cellCen c) (m.faceCen x) := by
      intro hh
      have := (hh 0 c d x rfl rfl hx sc sd).1
      linarith
    injection h with h
    rcases ht with ht | ht
    · rw [if_pos ((antiClock_iff _ _ _).2 (ht1 ht))] at h
      subst h
      exact ht
    · rw [if_neg (fun hh => ht' ht ((antiClock_iff _ _ _).1 hh))] at h
      subst h
      generalize c :: d :: l = L at ht
      intro i a b y hi hj hy sa sb
      have hil := (List.getElem?_eq_some_iff.1 hi).1
      have hjl := (List.getElem?_eq_some_iff.1 hj).1
      rw [List.length_reverse] at hil hjl
      rw [List.getElem?_reverse hil] at hi
      rw [List.getElem?_reverse hjl] at hj
      have e : L.length - 1 - i = (L.length - 1 - (i + 1)) + 1 := by omega
      rw [e] at hi
      obtain ⟨h1, h2⟩ := ht _ b a y hj hi hy sb sa
      have sw : ∀ p q : Geo.P3, turn (m.coord v) p q = - turn (m.coord v) q p := by
        intro p q; unfold turn; ring
      have e1 := sw (m.cellCen a) (m.faceCen y)
      have e2 := sw (m.faceCen y) (m.cellCen b)
      constructor <;> linarith

/-- The four upper cells around the middle of the eight cubes, listed clockwise. -/
example : Around Cube.cube 13 ∧ [4, 6, 7, 5].Nodup ∧ Turning Cube.cube 13 [4, 6, 7, 5] (-1) ∧
    (∀ i c d, [4, 6, 7, 5][i]? = some c → [4, 6, 7, 5][i + 1]? = some d →
      ∃ x ∈ Cube.cube.vFaces 13, Side Cube.cube x c ∧ Side Cube.cube x d) ∧
    ∃ out, antiClockwise Cube.cube 13 [4, 6, 7, 5] = .ok out := by
  refine ⟨Cube.around (by decide), by decide, ?_, ?_, ⟨_, rfl⟩⟩
  swap
  · intro i c d hc hd
    have hi : i < 3 := by
      have := (List.getElem?_eq_some_iff.1 hd).1
      simp at this
      omega
    have ec : [4, 6, 7, 5].getD i 0 = c := by rw [List.getD_eq_getElem?_getD, hc]; rfl
    have ed : [4, 6, 7, 5].getD (i + 1) 0 = d := by rw [List.getD_eq_getElem?_getD, hd]; rfl
    have key : ∀ i < 3, ∃ x ∈ Cube.vFacesT.getD 13 [], Cube.sideB x ([4, 6, 7, 5].getD i 0) = true ∧
      Cube.sideB x ([4, 6, 7, 5].getD (i + 1) 0) = true := by decide +kernel
    obtain ⟨x, hx, h1, h2⟩ := key i hi
    rw [ec] at h1
    rw [ed] at h2
    exact ⟨x, hx, (Cube.side_iff _ _).2 h1, (Cube.side_iff _ _).2 h2⟩
  intro i c d x hc hd hx sc sd
  rw [Cube.side_iff] at sc sd
  have hi : i < 3 := by
    have := (List.getElem?_eq_some_iff.1 hd).1
    simp at this
    omega
  have key : ∀ i < 3, ∀ x ∈ Cube.vFacesT.getD 13 [], Cube.sideB x ([4, 6, 7, 5].getD i 0) = true →
      Cube.sideB x ([4, 6, 7, 5].getD (i + 1) 0) = true → x = [20, 10, 21].getD i 0 := by decide +kernel
  have ec : [4, 6, 7, 5].getD i 0 = c := by rw [List.getD_eq_getElem?_getD, hc]; rfl
  have ed : [4, 6, 7, 5].getD (i + 1) 0 = d := by rw [List.getD_eq_getElem?_getD, hd]; rfl
  have ex := key i hi x hx (by rw [ec]; exact sc) (by rw [ed]; exact sd)
  subst ec ed ex
  have : i = 0 ∨ i = 1 ∨ i = 2 := by omega
  rcases this with rfl | rfl | rfl <;>
    norm_num [turn, Cube.cube, Cube.xs, Cube.ys, Cube.zs, Cube.vxyz, Cube.faceVertsT]

/-! ### C140 each face is connected once -/

theorem connectsOnce_of (ha : Around m v) {l : List (ℤ × ℤ)} (h : Conns m v l) :
    ConnectsOnce m v l := by
  refine ⟨h.sound, ?_, ?_⟩
  · intro x hx
    obtain ⟨p, hp, hj⟩ := h.complete x hx
    obtain ⟨i, hi⟩ := List.mem_iff_getElem?.1 hp
    refine ⟨i, ⟨p, hi, hj⟩, ?_⟩
    rintro k ⟨q, hk, hq⟩
    exact not_udiff_eq h.once hk hi (joins_unique ha hx hq hj)
  · intro i j p q hij hi hj hq
    obtain ⟨a, b, hab, h1, h2⟩ := h.cellsFirst
    have hqp : isCellPair (m.vCells v).length q = true := by
      unfold isCellPair; simp [hq]
    have hja : j < a.length := by
      by_contra hj'
      rw [hab, List.getElem?_append_right (by omega)] at hj
      have := h2 q (List.mem_of_getElem? hj)
      rw [hqp] at this
      cases this
    rw [hab, List.getElem?_append_left (by omega)] at hi
    have := h1 p (List.mem_of_getElem? hi)
    unfold isCellPair at this
    simpa using this

/-- Around a vertex whose cells stand in columns each face is connected exactly once. -/
theorem C140_vertex (ha : Around m v) {A B Ain Bin : List Nat} (h : Layered m v A B)
    (hA : Ain.Perm A) (hB : Bin.Perm B) :
    ∃ l, upToDown m v Ain Bin = .ok l ∧ linked m v l = .ok l ∧ ConnectsOnce m v l := by
  obtain ⟨l, h1, h2⟩ := upToDown_conns ha h hA hB
  exact ⟨l, h1, linked_ok ha h2, connectsOnce_of ha h2⟩

/-- On every mesh of vertical prisms in columns the setup succeeds, and around each vertex with
several cells each face is connected exactly once. -/
theorem C140_mesh (hm : Columnar m) : ∃ r, setupTraversal m = .ok r ∧
    ∀ v, LocalVertex m v → 2 ≤ (m.vCells v).length → ConnectsOnce m v (r v) := by
  obtain ⟨r, h1, h2⟩ := setupTraversal_ok hm
  exact ⟨r, h1, fun v hv hs => connectsOnce_of (hm.around v hv hs) (h2 v hv hs)⟩

/-- The numbering of the faces that follows from the connections is what the local flux problems
(C46, C47, C92, C134) require of the mesh. -/
theorem C140_well_formed (hm : Columnar m) : ∃ r, setupTraversal m = .ok r ∧
    ∀ v, LocalVertex m v → 2 ≤ (m.vCells v).length → ∀ G bnd dirichlet,
      Mpfao.Spec.WellFormed (vtxOf m v (r v) G bnd dirichlet) := by
  obtain ⟨r, h1, h2⟩ := setupTraversal_ok hm
  exact ⟨r, h1, fun v hv hs G bnd dir => wellFormed (hm.around v hv hs) (h2 v hv hs) G bnd dir⟩

/-- The eight cubes meet the hypotheses, at a vertex with eight cells, at one with four on two levels,
at one with two on one level. -/
example : Columnar Cube.cube ∧ LocalVertex Cube.cube 13 ∧ (Cube.cube.vCells 13).length = 8 ∧
    LocalVertex Cube.cube 10 ∧ (Cube.cube.vCells 10).length = 4 ∧
    LocalVertex Cube.cube 1 ∧ (Cube.cube.vCells 1).length = 2 :=
  ⟨Cube.columnar, ⟨by decide, rfl⟩, by decide, ⟨by decide, rfl⟩, by decide, ⟨by decide, rfl⟩,
    by decide⟩

/-- The ring of four cells around the centre, given in another order. -/
example : Ring Cube.cube [4, 5, 7, 6] ∧ [4, 5, 6, 7].Perm [4, 5, 7, 6] :=
  ⟨Cube.ring_of (by decide +kernel), by decide⟩

/-! ### C141 meshes without columns -/

/-- Nothing follows from an error of the first pass. -/
theorem upwindAll_ub {st : Rows} {n : Nat} (h : ∃ k < n, 1 < (m.vCells k).length ∧ m.isLocal k = true ∧
    (∀ j < k, ¬ (1 < (m.vCells j).length ∧ m.isLocal j = true)) ∧ upwindFaces m k st = .ub) :
    upwindAll m st n = .ub := by
  induction n with
  | zero => obtain ⟨k, hk, _⟩ := h; omega
  | succ n ih =>
    obtain ⟨k, hk, h1, h2, h3, h4⟩ := h
    unfold upwindAll
    rcases Nat.lt_succ_iff_lt_or_eq.1 hk with g | g
    · rw [ih ⟨k, g, h1, h2, h3, h4⟩]; rfl
    · subst g
      have hok : ∀ j, j ≤ k → ∃ r, upwindAll m st j = .ok r := by
        intro j
        induction j with
        | zero => exact fun _ => ⟨_, rfl⟩
        | succ j ihj =>
          intro hj
          obtain ⟨r, hr⟩ := ihj (by omega)
          unfold upwindAll
          rw [hr]
          simp only [Out.bind]
          rw [if_neg (by simpa using h3 j (by omega))]
          exact ⟨r, rfl⟩
      obtain ⟨r, hr⟩ := hok k (le_refl k)
      rw [hr]
      simp only [Out.bind]
      rw [if_pos (by simp [h1, h2]), h4]

theorem findAll_err {st : Rows} (hpos : 0 < m.numVertices) (h0 : findStep m 0 ⟨fun _ => none, fun _ => none⟩ = .err st) :
    findAll m = .err st := by
  unfold findAll
  obtain ⟨n, hn⟩ := Nat.exists_eq_succ_of_ne_zero (by omega : m.numVertices ≠ 0)
  rw [hn]
  clear hn
  induction n with
  | zero => exact h0
  | succ n ih =>
    rw [forN, ih]
    rfl

/-- No cell of the vertex has a vertical edge there. -/
def NoUprightEdge (m : TMesh) (v : Nat) : Prop :=
  ∀ c ∈ m.vCells v, ∀ w ∈ m.cellVerts c, w ≠ v → ¬ Plumb m v w

theorem noEdge_vertical (h : NoUprightEdge m v) {c : Nat} (hc : c ∈ m.vCells v) :
    verticalVertex m c v = none := by
  unfold verticalVertex
  rw [List.find?_eq_none]
  intro w hw
  simp only [Bool.and_eq_true, bne_iff_ne, ne_eq, not_and]
  intro hne hs
  exact h c hc w hw hne ((sameXY_iff v w).1 hs)

theorem noEdge_above (h : NoUprightEdge m v) :
    (m.vCells v).filter (fun c => isAbove m c v) = m.vCells v ∧
    (m.vCells v).filter (fun c => !isAbove m c v) = [] := by
  have hi : ∀ c ∈ m.vCells v, isAbove m c v = true := by
    intro c hc
    unfold isAbove
    rw [noEdge_vertical h hc]
    rfl
  constructor
  · rw [List.filter_eq_self]; exact hi
  · rw [List.filter_eq_nil_iff]; intro c hc; rw [hi c hc]; simp

theorem noEdge_err (h : NoUprightEdge m v) (h2 : 2 ≤ (m.vCells v).length) :
    aboveBelow m v = .err := by
  unfold aboveBelow
  obtain ⟨h1, h3⟩ := noEdge_above h
  simp only [h1, h3]
  have : levelOrder m v (m.vCells v) = .err := by
    unfold levelOrder
    rw [if_neg (by omega)]
    match hcs : m.vCells v with
    | [] => rw [hcs] at h2; simp at h2
    | c :: cs =>
      unfold splitBnd hasBndEdge
      rw [noEdge_vertical h (by rw [hcs]; exact List.mem_cons_self)]
      rfl
  rw [this]
  rfl

theorem upToDown_nil : upToDown m v [] [] = .ok [] := by
  have hl : ∀ N nc b, levelConns N nc b (rowOf []) = [] := by
    intro N nc b
    unfold levelConns
    cases N with
    | zero => rfl
    | succ N => rw [List.range_succ_eq_map, List.takeWhile_cons_of_neg (by simp [rowOf])]; rfl
  have hc : ∀ N nc, crossConns N nc (rowOf []) (rowOf []) = [] := by
    intro N nc
    unfold crossConns
    cases N with
    | zero => rfl
    | succ N => rw [List.range_succ_eq_map, List.takeWhile_cons_of_neg (by simp [rowOf])]; rfl
  unfold upToDown convert addUpDown
  simp only [Out.bind, List.length_nil, gt_iff_lt, Nat.not_lt_zero, if_false, if_true, addFlat]
  simp [connections, hl, hc]

/-- The first pass fails at the first vertex, its error code is not looked at, and the second pass
writes in front of an array. -/
theorem C141_violated_error_ignored (hpos : 0 < m.numVertices) (hloc : m.isLocal 0 = true)
    (h2 : 2 ≤ (m.vCells 0).length) (h : NoUprightEdge m 0)
    {i f : Nat} (hi : i < (m.vCells 0).length) (hf : f < 3) (hint : m.faceInternal (m.subFace 0 i f) = true) :
    (∃ st, findAll m = .err st) ∧ setupTraversal m = .ub := by
  have h0 : findStep m 0 ⟨fun _ => none, fun _ => none⟩ = .err ⟨fun _ => none, fun _ => none⟩ := by
    unfold findStep findAtVertex
    rw [noEdge_err h h2]
    simp [hloc]
  have hA := findAll_err hpos h0
  refine ⟨⟨_, hA⟩, ?_⟩
  unfold setupTraversal
  rw [hA]
  refine upwindAll_ub ⟨0, hpos, by omega, hloc, by intro j hj; omega, ?_⟩
  unfold upwindFaces
  simp only [Option.getD_none, upToDown_nil, Out.bind]
  unfold linked
  rw [if_neg]
  intro hall
  rw [List.all_eq_true] at hall
  have := hall i (List.mem_range.2 hi)
  rw [List.all_eq_true] at this
  have := this f (List.mem_range.2 hf)
  rw [hint] at this
  simp [linkOf, findConn] at this

/-- At a first vertex with one cell the error code is taken for a vertex number. -/
theorem C141_violated_code_as_index (hpos : 0 < m.numVertices) (hsmall : m.numVertices ≤ 83)
    (hloc : m.isLocal 0 = true) {c : Nat} (h1 : m.vCells 0 = [c]) (h : NoUprightEdge m 0) :
    setupTraversal m = .ub := by
  have hab : aboveBelow m 0 = .ok ([c], []) := by
    unfold aboveBelow
    obtain ⟨g1, g2⟩ := noEdge_above h
    rw [h1] at g1 g2
    simp only [h1, g1, g2]
    simp [levelOrder, Out.bind]
  have h0 : findStep m 0 ⟨fun _ => none, fun _ => none⟩ = .ub := by
    unfold findStep findAtVertex
    rw [hab]
    have hv : vertexSameXY m c 0 = 83 := by
      unfold vertexSameXY
      rw [noEdge_vertical h (by rw [h1]; exact List.mem_cons_self)]
      rfl
    simp only [hloc, Bool.not_true, Bool.false_eq_true, if_false, saveOpposite, hv]
    rw [if_neg (by omega)]
  have : findAll m = .ub := by
    unfold findAll
    obtain ⟨n, hn⟩ := Nat.exists_eq_succ_of_ne_zero (by omega : m.numVertices ≠ 0)
    rw [hn]
    clear hn
    induction n with
    | zero => exact h0
    | succ n ih =>
      rw [forN, ih]
      rfl
  unfold setupTraversal
  rw [this]

/-- What holds: where the code does not go wrong it has found every vertical edge it needs. -/
theorem C141_refused_partial (hloc : m.isLocal v = true) (h2 : 2 ≤ (m.vCells v).length)
    (h : NoUprightEdge m v) (st : Rows) (hs : st.above v = none) (hs' : st.below v = none) :
    findStep m v st = .err st := by
  unfold findStep findAtVertex
  rw [noEdge_err h h2]
  simp [hloc, hs, hs']

/-- The eight cubes, tilted: they lean to the side, so that no edge is vertical.  `σ` renumbers the
vertices. -/
noncomputable def tilted (σ : Nat → Nat) : TMesh where
  numVertices := 27
  maxVertexFaces := 12
  isLocal := fun _ => true
  coord := fun v => ⟨(2 * Cube.xs (σ v) + Cube.zs (σ v) : Nat), (Cube.ys (σ v) : ℝ), (Cube.zs (σ v) : ℝ)⟩
  cellFaces := Cube.cube.cellFaces
  cellVerts := fun c => (Cube.cube.cellVerts c).map σ
  cellCen := fun c => ⟨2 * (Cube.cube.cellCen c).x + (Cube.cube.cellCen c).z, (Cube.cube.cellCen c).y,
    (Cube.cube.cellCen c).z⟩
  faceCells := Cube.cube.faceCells
  faceVerts := fun f => (Cube.cube.faceVerts f).map σ
  faceInternal := Cube.cube.faceInternal
  faceCen := fun f => ⟨2 * (Cube.cube.faceCen f).x + (Cube.cube.faceCen f).z, (Cube.cube.faceCen f).y,
    (Cube.cube.faceCen f).z⟩
  vCells := fun v => Cube.cube.vCells (σ v)
  vBnd := fun v => Cube.cube.vBnd (σ v)
  vFaces := fun v => Cube.cube.vFaces (σ v)
  subFace := fun v => Cube.cube.subFace (σ v)

theorem tilted_plumb {σ : Nat → Nat} {v w : Nat} (h : Plumb (tilted σ) v w) :
    2 * Cube.xs (σ v) + Cube.zs (σ v) = 2 * Cube.xs (σ w) + Cube.zs (σ w) ∧
    Cube.ys (σ v) = Cube.ys (σ w) := by
  have key : ∀ a b : Nat, ((a : ℝ) - b) ^ 2 < 1 / 10 ^ 14 → a = b := by
    intro a b hab
    by_contra hne
    have hz : ((a : ℤ) - (b : ℤ)) ≠ 0 := by omega
    have h1 : (1 : ℤ) ≤ ((a : ℤ) - (b : ℤ)) ^ 2 := by
      have := sq_nonneg ((a : ℤ) - (b : ℤ))
      have := pow_ne_zero 2 hz
      omega
    have h2 : (1 : ℝ) ≤ ((a : ℝ) - (b : ℝ)) ^ 2 := by exact_mod_cast h1
    norm_num at hab
    linarith
  unfold Plumb tilted at h
  simp only at h
  constructor
  · apply key
    nlinarith [sq_nonneg ((Cube.ys (σ v) : ℝ) - (Cube.ys (σ w) : ℝ))]
  · apply key
    nlinarith [sq_nonneg (((2 * Cube.xs (σ v) + Cube.zs (σ v) : Nat) : ℝ) -
      ((2 * Cube.xs (σ w) + Cube.zs (σ w) : Nat) : ℝ))]

/-- The number 0 is given to the vertex in the middle. -/
def middleFirst (v : Nat) : Nat := if v = 0 then 13 else if v = 13 then 0 else v

theorem tilted_noEdge {σ : Nat → Nat}
    (h : ((Cube.vCellsT.getD (σ 0) []).all fun c => ((Cube.cellVertsT.getD c []).map σ).all fun w =>
      w == 0 || !(decide (2 * Cube.xs (σ 0) + Cube.zs (σ 0) = 2 * Cube.xs (σ w) + Cube.zs (σ w)) &&
        decide (Cube.ys (σ 0) = Cube.ys (σ w)))) = true) : NoUprightEdge (tilted σ) 0 := by
  intro c hc w hw hne hp
  rw [List.all_eq_true] at h
  have := h c hc
  rw [List.all_eq_true] at this
  have := this w hw
  obtain ⟨h1, h2⟩ := tilted_plumb hp
  simp [hne, h1, h2] at this

/-- A mesh of eight leaning prisms is not refused: its setup runs into undefined behaviour in one
numbering of its vertices because an error is ignored, and in another because an error code is used
as an index. -/
theorem C141_violated : setupTraversal (tilted middleFirst) = .ub ∧ setupTraversal (tilted id) = .ub := by
  constructor
  · exact (C141_violated_error_ignored (i := 0) (f := 0) (by decide) rfl (by decide)
      (tilted_noEdge (by decide +kernel)) (by decide) (by decide) (by decide)).2
  · exact C141_violated_code_as_index (c := 0) (by decide) (by decide) rfl rfl
      (tilted_noEdge (by decide +kernel))

/-! ### C142 cells above and below -/

/-- On every mesh of vertical prisms in columns the first pass succeeds and delivers for each vertex
exactly its cells above and its cells below. -/
theorem C142_levels (hm : Columnar m) : ∃ st, findAll m = .ok st ∧ ∀ v, LocalVertex m v →
    ((st.above v).getD []).Perm (overs m v) ∧ ((st.below v).getD []).Perm (unders m v) :=
  findAll_ok hm

/-- The cells of the middle vertex of the eight cubes. -/
example : (overs Cube.cube 13).Perm [4, 5, 6, 7] ∧ (unders Cube.cube 13).Perm [0, 1, 2, 3] := by
  rw [Cube.overs_eq, Cube.unders_eq]
  decide

end TDy.Traverse.Props
