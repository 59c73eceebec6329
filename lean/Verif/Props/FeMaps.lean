import Verif.Proofs.FeMaps

/-!
# C114, C115: local numbering and velocity unknowns of the finite element methods
-/

namespace TDy.Fe.Props

open TDy.Fe TDy.Fe.Spec TDy.Fe.Proofs

/-- **C114** In a cell that is the image of the reference cell, corner `q` is numbered by its vertex,
the entry of corner `q` and direction `d` is the face across that direction, and it is negative
exactly if the normal of the face points into the cell. -/
theorem C114_corner_face_map (m : Plex) (c : Nat) (vert : Nat → Nat) (face : Nat → Nat → Nat)
    (h : Shaped m c vert face) (hf0 : 0 < m.fStart) (q d : Nat) (hq : q < m.ncv) (hd : d < m.dim) :
    vertexMap m c q = vert q
    ∧ (dirFaceMap m (vertexMap m c) c (q*m.dim + d)).natAbs = face q d
    ∧ (dirFaceMap m (vertexMap m c) c (q*m.dim + d) < 0 ↔ Inward m c (face q d)) := by
  refine ⟨vertexMap_eq h hq, ?_, ?_⟩
  · rw [dirFaceMap_eq h (fun q hq => vertexMap_eq h hq) hq hd, signed]
    split <;> simp
  · rw [dirFaceMap_eq h (fun q hq => vertexMap_eq h hq) hq hd, signed, aDotBMinusC, forN_sumR]
    have hpos : 0 < face q d := by
      have := (h.isFace q hq d hd).2
      simp only [Plex.isFace, Bool.and_eq_true, decide_eq_true_eq] at this
      omega
    simp only [zero_add, Inward]
    split
    · rename_i hn
      exact ⟨fun _ => hn, fun _ => by omega⟩
    · rename_i hn
      exact ⟨fun hh => absurd hh (by omega), fun hh => absurd hh hn⟩

/-- **C114** The face the code keeps for direction `d` and side `s` of a cell is the face of every
corner on that side, if faces have all their corners. -/
theorem C114_side_face (m : Plex) (c : Nat) (vert : Nat → Nat) (face : Nat → Nat → Nat)
    (h : Shaped m c vert face)
    (hw : ∀ q < m.ncv, ∀ q' < m.ncv, ∀ d < m.dim, q.testBit d = q'.testBit d →
      vert q' ∈ m.closure (face q d))
    (d q : Nat) (hq : q < m.ncv) (hd : d < m.dim) :
    sideFace m c d (if q.testBit d then 1 else 0) = face q d := by
  have key : (if q.testBit d then 1 else 0)*2^d < m.ncv ∧
      q.testBit d = ((if q.testBit d then 1 else 0)*2^d).testBit d ∧
      opposite m.dim ((if q.testBit d then 1 else 0)*2^d) d < m.ncv ∧
      q.testBit d = (opposite m.dim ((if q.testBit d then 1 else 0)*2^d) d).testBit d := by
    have e := h.corners
    rcases h.dim with hm | hm <;> rw [hm] at e hd ⊢ <;> rw [e] at hq ⊢ <;>
      interval_cases d <;> interval_cases q <;> decide
  obtain ⟨k1, k2, k3, k4⟩ := key
  unfold sideFace
  rw [dirFaceMap_eq h (fun q hq => vertexMap_eq h hq) k1 hd, signed]
  have e := h.unique _ k1 d hd (face q d) (h.isFace q hq d hd).1 (h.isFace q hq d hd).2
    (hw q hq _ k1 d hd k2) (hw q hq _ k3 d hd k4)
  rw [← e]
  split <;> simp

/-- A loop that writes at index `k` for the `i` that satisfy a test, and the unique such `i`. -/
theorem dof_loop (n : Nat) (P : Nat → Prop) [DecidablePred P] (k : Nat) (a b : Nat → Int)
    (va : Nat → Int) (vb : Int) (i0 : Nat) (hi0 : i0 < n) (hP : P i0)
    (hu : ∀ i < n, P i → i = i0) :
    forN n (fun i (r : Dofs × Bool) =>
      if P i then (⟨wr r.1.ltog k (va i), wr r.1.orient k vb⟩, true) else r) (⟨a, b⟩, false)
      = (⟨wr a k (va i0), wr b k vb⟩, true) := by
  have key := forN_invariant n (fun i (r : Dofs × Bool) =>
      if P i then (⟨wr r.1.ltog k (va i), wr r.1.orient k vb⟩, true) else r) (⟨a, b⟩, false)
    (fun j s => s = if i0 < j then ((⟨wr a k (va i0), wr b k vb⟩ : Dofs), true) else (⟨a, b⟩, false))
    (by simp) (by
      rintro j s hj rfl
      by_cases hPj : P j
      · have : j = i0 := hu j hj hPj
        subst this
        rw [if_pos hPj, if_neg (by omega), if_pos (by omega)]
      · rw [if_neg hPj]
        have hne : i0 ≠ j := fun e => hPj (e ▸ hP)
        by_cases h : i0 < j
        · rw [if_pos h, if_pos (by omega)]
        · rw [if_neg h, if_neg (by omega)])
  rw [key, if_pos hi0]

/-- A face has the vertex `p` as number `i` of its list. -/
def VertexAt (m : Plex) (f i p : Nat) : Prop := ((m.closure f).filter m.isVertex)[i]? = some p

/-- What TDySetup_BDM needs about the faces of a cell: `nfv` vertices, all different. -/
def ListsVertices (m : Plex) (f : Nat) : Prop :=
  ((m.closure f).filter m.isVertex).length = m.nfv ∧ ((m.closure f).filter m.isVertex).Nodup

theorem faceVertex_iff {m : Plex} {f i p : Nat} (h : ListsVertices m f) (hi : i < m.nfv) :
    p = faceVertex m f i ↔ VertexAt m f i p := by
  unfold faceVertex VertexAt
  have hi' : i < ((m.closure f).filter m.isVertex).length := by rw [h.1]; exact hi
  rw [List.getD_eq_getElem?_getD, List.getElem?_eq_getElem hi']
  simp [eq_comm]

/-- What a pair of corner and direction gets in a cell. -/
def DofIs (m : Plex) (start : Nat → Int) (c : Nat) (vert : Nat → Nat) (face : Nat → Nat → Nat)
    (s : Dofs) (v d : Nat) : Prop :=
  (∃ i < m.nfv, VertexAt m (face v d) i (vert v) ∧
    s.ltog (v*m.dim + d) = decode (start (face v d)) + i) ∧
  s.orient (v*m.dim + d) = open Classical in if Inward m c (face v d) then -1 else 1

theorem dofStep_ok {m : Plex} {c : Nat} {vert : Nat → Nat} {face : Nat → Nat → Nat}
    (h : Shaped m c vert face) (hf0 : 0 < m.fStart)
    (hl : ∀ q < m.ncv, ∀ d < m.dim, ListsVertices m (face q d)) (start : Nat → Int)
    (v d : Nat) (hv : v < m.ncv) (hd : d < m.dim) (s : Dofs) :
    ∃ t, dofStep m start (vertexMap m c) (dirFaceMap m (vertexMap m c) c) v d s = .ok t
      ∧ DofIs m start c vert face t v d
      ∧ ∀ k, k ≠ v*m.dim + d → t.ltog k = s.ltog k ∧ t.orient k = s.orient k := by
  classical
  obtain ⟨h1, h2, h3⟩ := C114_corner_face_map m c vert face h hf0 v d hv hd
  have hlf := hl v hv d hd
  -- the vertex is in the list of the face
  have hmem : vert v ∈ (m.closure (face v d)).filter m.isVertex := by
    rw [List.mem_filter]
    exact ⟨(h.spans v hv d hd).1, (h.mem v hv).2⟩
  obtain ⟨i0, hi0, he0⟩ := List.getElem_of_mem hmem
  have hi0' : i0 < m.nfv := hlf.1 ▸ hi0
  have hat : VertexAt m (face v d) i0 (vert v) := by
    rw [VertexAt, List.getElem?_eq_getElem hi0, he0]
  have huniq : ∀ i < m.nfv, vert v = faceVertex m (face v d) i → i = i0 := by
    intro i hi hp
    rw [faceVertex_iff hlf hi, VertexAt] at hp
    have hi'' : i < ((m.closure (face v d)).filter m.isVertex).length := by rw [hlf.1]; exact hi
    rw [List.getElem?_eq_getElem hi''] at hp
    exact (List.Nodup.getElem_inj_iff hlf.2).1 ((Option.some_injective _ hp).trans he0.symm)
  have hsgn : petscSign (dirFaceMap m (vertexMap m c) c (v*m.dim + d))
      = if Inward m c (face v d) then -1 else 1 := by
    have hpos : 0 < face v d := by
      have := (h.isFace v hv d hd).2
      simp only [Plex.isFace, Bool.and_eq_true, decide_eq_true_eq] at this
      omega
    unfold petscSign
    by_cases hn : dirFaceMap m (vertexMap m c) c (v*m.dim + d) < 0
    · rw [if_pos hn, if_pos (h3.1 hn)]
    · rw [if_neg hn, if_neg (fun hh => hn (h3.2 hh)), if_pos (by omega)]
  unfold dofStep
  simp only [h2, h1, hsgn]
  have hloop := dof_loop m.nfv (fun i => vert v = faceVertex m (face v d) i) (v*m.dim + d) s.ltog
    s.orient (fun i => decode (start (face v d)) + i) (if Inward m c (face v d) then -1 else 1) i0
    hi0' ((faceVertex_iff hlf hi0').2 hat) huniq
  rw [hloop]
  refine ⟨_, if_pos rfl, ⟨⟨i0, hi0', hat, wr_same _ _ _⟩, wr_same _ _ _⟩, ?_⟩
  intro k hk
  exact ⟨wr_other _ _ hk, wr_other _ _ hk⟩

theorem index_inj {dim v d v' d' : Nat} (hd : d < dim) (hd' : d' < dim)
    (h : v*dim + d = v'*dim + d') : v = v' ∧ d = d' := by
  have h1 := congrArg (· / dim) h
  have hpos : 0 < dim := by omega
  rw [Nat.mul_comm v, Nat.mul_comm v', Nat.mul_add_div hpos, Nat.mul_add_div hpos,
    Nat.div_eq_of_lt hd, Nat.div_eq_of_lt hd'] at h1
  have : v = v' := by omega
  subst this
  exact ⟨rfl, by omega⟩

/-- The unknowns of a cell. -/
theorem cellDofs_ok {m : Plex} {c : Nat} {vert : Nat → Nat} {face : Nat → Nat → Nat}
    (h : Shaped m c vert face) (hf0 : 0 < m.fStart)
    (hl : ∀ q < m.ncv, ∀ d < m.dim, ListsVertices m (face q d)) (start : Nat → Int) :
    ∃ t, cellDofs m start c = .ok t
      ∧ (∀ v < m.ncv, ∀ d < m.dim, DofIs m start c vert face t v d)
      ∧ t.ltog (m.dim*m.ncv) = decode (start c) := by
  unfold cellDofs
  dsimp only
  have hlt : ∀ v < m.ncv, ∀ d < m.dim, v*m.dim + d < m.dim*m.ncv := by
    intro v hv d hd
    have : (v + 1)*m.dim ≤ m.ncv*m.dim := Nat.mul_le_mul_right _ hv
    rw [Nat.mul_comm m.dim]
    rw [Nat.add_mul] at this
    omega
  obtain ⟨t, ht, h1, h2⟩ := forN_invariant m.ncv _ _ (fun n (r : Res Dofs) => ∃ t, r = .ok t
      ∧ (∀ v < n, ∀ d < m.dim, DofIs m start c vert face t v d)
      ∧ t.ltog (m.dim*m.ncv) = decode (start c))
    ⟨⟨wr (fun _ => 0) (m.dim*m.ncv) (decode (start c)), fun _ => 0⟩, rfl,
      fun v hv => absurd hv (by omega), wr_same (fun _ => 0) (m.dim*m.ncv) (decode (start c))⟩ (by
      rintro n r hn ⟨t, rfl, h1, h2⟩
      obtain ⟨t', ht', h1', h2', h3'⟩ := forN_invariant m.dim
        (fun d (r : Res Dofs) => r.bind (dofStep m start (vertexMap m c)
          (dirFaceMap m (vertexMap m c) c) n d)) (.ok t)
        (fun j (r : Res Dofs) => ∃ t, r = .ok t
          ∧ (∀ v < n, ∀ d < m.dim, DofIs m start c vert face t v d)
          ∧ (∀ d < j, DofIs m start c vert face t n d)
          ∧ t.ltog (m.dim*m.ncv) = decode (start c))
        ⟨t, rfl, h1, fun d hd => absurd hd (by omega), h2⟩ (by
          rintro j r hj ⟨t, rfl, h1, h2, h3⟩
          obtain ⟨u, hu, hu1, hu2⟩ := dofStep_ok h hf0 hl start n j hn hj t
          refine ⟨u, hu, ?_, ?_, ?_⟩
          · intro v hv d hd
            have hk := hu2 (v*m.dim + d) (fun e => by
              have := (index_inj hd hj e).1
              omega)
            have := h1 v hv d hd
            unfold DofIs at this ⊢
            rw [hk.1, hk.2]
            exact this
          · intro d hd
            by_cases e : d = j
            · exact e ▸ hu1
            · have hk := hu2 (n*m.dim + d) (fun e' => e (index_inj (by omega) hj e').2)
              have := h2 d (by omega)
              unfold DofIs at this ⊢
              rw [hk.1, hk.2]
              exact this
          · have := hlt n hn j hj
            rw [(hu2 (m.dim*m.ncv) (by omega)).1, h3])
      refine ⟨t', ht', ?_, h3'⟩
      intro v hv d hd
      by_cases e : v = n
      · exact e ▸ h2' d hd
      · exact h1' v (by omega) d hd)
  exact ⟨t, ht, h1, h2⟩

/-- Every velocity unknown of a face lies in the block of its face: the blocks of the faces, and the
rows of the cells, do not overlap. -/
structure Blocks (m : Plex) (start : Nat → Int) : Prop where
  faces : ∀ f g, m.isFace f = true → m.isFace g = true → f ≠ g → ∀ i < m.nfv, ∀ j < m.nfv,
    decode (start f) + i ≠ decode (start g) + j
  cells : ∀ c < m.nCells, ∀ f, m.isFace f = true → ∀ i < m.nfv,
    decode (start c) ≠ decode (start f) + i

/-- **C115** The velocity unknowns of the BDM method: setting up succeeds, and two corners of cells
share an unknown exactly if they are the same vertex of the same face; an unknown is flipped exactly
in the cells into which the normal of the face points; no velocity unknown is the pressure of a
cell. -/
theorem C115_velocity_unknowns (m : Plex) (start : Nat → Int) (hb : Blocks m start)
    (hf0 : 0 < m.fStart) (vert : Nat → Nat → Nat) (face : Nat → Nat → Nat → Nat)
    (h : ∀ c < m.nCells, Shaped m c (vert c) (face c))
    (hl : ∀ f, m.isFace f = true → ListsVertices m f) :
    ∃ dofs : Nat → Dofs, (∀ c < m.nCells, cellDofs m start c = .ok (dofs c))
      ∧ (∀ c < m.nCells, ∀ v < m.ncv, ∀ d < m.dim, ∀ c' < m.nCells, ∀ v' < m.ncv, ∀ d' < m.dim,
          (dofs c).ltog (v*m.dim + d) = (dofs c').ltog (v'*m.dim + d')
            ↔ vert c v = vert c' v' ∧ face c v d = face c' v' d')
      ∧ (∀ c < m.nCells, ∀ v < m.ncv, ∀ d < m.dim,
          (Inward m c (face c v d) → (dofs c).orient (v*m.dim + d) = -1)
          ∧ (¬ Inward m c (face c v d) → (dofs c).orient (v*m.dim + d) = 1))
      ∧ (∀ c < m.nCells, (dofs c).ltog (m.dim*m.ncv) = decode (start c)
          ∧ ∀ c' < m.nCells, ∀ v < m.ncv, ∀ d < m.dim,
            (dofs c').ltog (v*m.dim + d) ≠ (dofs c).ltog (m.dim*m.ncv)) := by
  classical
  have hc : ∀ c, ∃ t : Dofs, c < m.nCells → cellDofs m start c = .ok t
      ∧ (∀ v < m.ncv, ∀ d < m.dim, DofIs m start c (vert c) (face c) t v d)
      ∧ t.ltog (m.dim*m.ncv) = decode (start c) := by
    intro c
    by_cases hcn : c < m.nCells
    · obtain ⟨t, ht⟩ := cellDofs_ok (h c hcn) hf0
        (fun q hq d hd => hl _ ((h c hcn).isFace q hq d hd).2) start
      exact ⟨t, fun _ => ht⟩
    · exact ⟨⟨fun _ => 0, fun _ => 0⟩, fun hh => absurd hh hcn⟩
  choose dofs hd using hc
  refine ⟨dofs, fun c hcn => (hd c hcn).1, ?_, ?_, ?_⟩
  · intro c hcn v hv d hdd c' hcn' v' hv' d' hdd'
    obtain ⟨⟨i, hi, hat, hrow⟩, _⟩ := (hd c hcn).2.1 v hv d hdd
    obtain ⟨⟨i', hi', hat', hrow'⟩, _⟩ := (hd c' hcn').2.1 v' hv' d' hdd'
    have hF := ((h c hcn).isFace v hv d hdd).2
    have hF' := ((h c' hcn').isFace v' hv' d' hdd').2
    rw [hrow, hrow']
    constructor
    · intro e
      have hff : face c v d = face c' v' d' := by
        by_contra hne
        exact hb.faces _ _ hF hF' hne i hi i' hi' e
      rw [hff] at e hat
      have : i = i' := by omega
      subst this
      exact ⟨Option.some_injective _ (hat.symm.trans hat'), hff⟩
    · rintro ⟨e1, e2⟩
      rw [e1, e2] at hat
      rw [e2]
      have hlen := (hl _ hF').1
      have hnd := (hl _ hF').2
      unfold VertexAt at hat hat'
      rw [List.getElem?_eq_getElem (by rw [hlen]; exact hi)] at hat
      rw [List.getElem?_eq_getElem (by rw [hlen]; exact hi')] at hat'
      have := (List.Nodup.getElem_inj_iff hnd).1
        ((Option.some_injective _ hat).trans (Option.some_injective _ hat').symm)
      rw [this]
  · intro c hcn v hv d hdd
    have := ((hd c hcn).2.1 v hv d hdd).2
    exact ⟨fun hin => by rw [this, if_pos hin], fun hin => by rw [this, if_neg hin]⟩
  · intro c hcn
    refine ⟨(hd c hcn).2.2, ?_⟩
    intro c' hcn' v hv d hdd
    obtain ⟨⟨i, hi, hat, hrow⟩, _⟩ := (hd c' hcn').2.1 v hv d hdd
    rw [hrow, (hd c hcn).2.2]
    exact fun e => hb.cells c hcn _ ((h c' hcn').isFace v hv d hdd).2 i hi e.symm

/-- The number of vertices in the closure of a point. -/
def vertexCount (m : Plex) (p : Nat) : Nat := ((m.closure p).filter m.isVertex).length

theorem go_uniform (m : Plex) (k : Nat) (ps : List Nat) (h : ∀ p ∈ ps, vertexCount m p = k)
    (nq : Int) (hn : nq = -1 ∨ nq = k) :
    numberOfVertices.go m nq ps = if ps = [] then nq else k := by
  induction ps generalizing nq with
  | nil => rfl
  | cons p ps ih =>
    have hp : ((m.closure p).filter m.isVertex).length = k := h p (by simp)
    have hstep : (if nq = -1 then (((m.closure p).filter m.isVertex).length : Int) else nq) = k := by
      rcases hn with rfl | rfl
      · rw [if_pos rfl, hp]
      · split
        · rw [hp]
        · rfl
    rw [numberOfVertices.go]
    rw [hstep, if_neg (by rw [hp]; simp), ih (fun p hp => h p (by simp [hp])) k (Or.inr rfl)]
    simp

theorem go_mixed (m : Plex) (ps : List Nat) (nq : Nat) (p : Nat) (hp : p ∈ ps)
    (h : vertexCount m p ≠ nq) : numberOfVertices.go m nq ps = errSup := by
  induction ps with
  | nil => simp at hp
  | cons q ps ih =>
    rw [numberOfVertices.go]
    rw [if_neg (show ¬ ((nq : Int) = -1) by omega)]
    by_cases hq : (nq : Int) = (((m.closure q).filter m.isVertex).length : Int)
    · rw [if_neg (not_not.2 hq)]
      refine ih ?_
      rcases List.mem_cons.1 hp with e | e
      · subst e
        exact absurd (by exact_mod_cast hq.symm) h
      · exact e
    · rw [if_pos hq]

/-- **C116, part** On a mesh of cells with the same number of vertices (at most 8 in three dimensions,
at most 12 in two) the vertices are mapped. -/
theorem C116_uniform_partial (m : Plex) (k : Nat) (hk : k*m.dim ≤ 24) (hc : 0 < m.nCells)
    (h : ∀ c < m.nCells, vertexCount m c = k) :
    ∃ map, setupVertexMap m = .ok map ∧ ∀ c v, v < k → map c v = vertexMap m c v := by
  have hnum : numberOfVertices m (List.range m.nCells) = k := by
    rw [numberOfVertices, go_uniform m k _ (fun p hp => h p (List.mem_range.1 hp)) _ (Or.inl rfl),
      if_neg (by rw [List.range_eq_nil]; omega)]
  unfold setupVertexMap
  dsimp only
  rw [hnum, if_neg (by omega), if_neg (by
    have : (k : Int)*m.dim ≤ 24 := by exact_mod_cast hk
    omega)]
  exact ⟨_, rfl, fun c v hv => by simp [hv]⟩

/-- **C116** is violated: on every mesh with cells of different numbers of vertices, the error code is
taken for the number of vertices and the arrays of the corners are overrun; no error is reported. -/
theorem C116_violated (m : Plex) (hd : m.dim = 2 ∨ m.dim = 3) (c c' : Nat) (hc : c < m.nCells)
    (hc' : c' < m.nCells) (h : vertexCount m c ≠ vertexCount m c') : setupVertexMap m = .ub := by
  have hnum : numberOfVertices m (List.range m.nCells) = errSup := by
    obtain ⟨n, hn⟩ : ∃ n, m.nCells = n + 1 := ⟨m.nCells - 1, by omega⟩
    have : ∃ p ∈ List.range m.nCells, vertexCount m p ≠ vertexCount m 0 := by
      by_cases e : vertexCount m c = vertexCount m 0
      · exact ⟨c', List.mem_range.2 hc', fun e' => h (e.trans e'.symm)⟩
      · exact ⟨c, List.mem_range.2 hc, e⟩
    obtain ⟨p, hp, hne⟩ := this
    rw [hn, List.range_succ_eq_map] at hp ⊢
    have hp' : p ∈ List.map Nat.succ (List.range n) := by
      rcases List.mem_cons.1 hp with e | e
      · exact absurd (by rw [e]) hne
      · exact e
    unfold numberOfVertices
    rw [numberOfVertices.go]
    rw [if_pos rfl, if_neg (by simp)]
    exact go_mixed m _ _ p hp' hne
  unfold setupVertexMap
  dsimp only
  rw [hnum, if_neg (by omega), if_pos]
  rcases hd with e | e <;> rw [e] <;> decide

/-! ### Two squares side by side -/

namespace MapWitness

/-- Cells 0, 1; vertices 2, ..., 7 (from left to right, the lower row first); edges 8, ..., 14: the
vertical ones 8, 9, 10, the lower ones 11, 12, the upper ones 13, 14.  The normals point to the right
and upwards. -/
def verts : Nat → List Nat
  | 0 => [2, 3, 6, 5]
  | 1 => [3, 4, 7, 6]
  | 8 => [2, 5]
  | 9 => [3, 6]
  | 10 => [4, 7]
  | 11 => [2, 3]
  | 12 => [3, 4]
  | 13 => [5, 6]
  | 14 => [6, 7]
  | _ => []

def edges : Nat → List Nat
  | 0 => [11, 9, 13, 8]
  | 1 => [12, 10, 14, 9]
  | _ => []

noncomputable def coord : Nat → Nat → ℝ
  | 0, 0 => 1/2 | 0, 1 => 1/2
  | 1, 0 => 3/2 | 1, 1 => 1/2
  | 2, 0 => 0 | 2, 1 => 0
  | 3, 0 => 1 | 3, 1 => 0
  | 4, 0 => 2 | 4, 1 => 0
  | 5, 0 => 0 | 5, 1 => 1
  | 6, 0 => 1 | 6, 1 => 1
  | 7, 0 => 2 | 7, 1 => 1
  | 8, 0 => 0 | 8, 1 => 1/2
  | 9, 0 => 1 | 9, 1 => 1/2
  | 10, 0 => 2 | 10, 1 => 1/2
  | 11, 0 => 1/2 | 11, 1 => 0
  | 12, 0 => 3/2 | 12, 1 => 0
  | 13, 0 => 1/2 | 13, 1 => 1
  | 14, 0 => 3/2 | 14, 1 => 1
  | _, _ => 0

/-- vertex of corner `q` of a cell -/
def vert (c q : Nat) : Nat := ([[2, 3, 5, 6], [3, 4, 6, 7]].getD c []).getD q 0

def face (c q d : Nat) : Nat :=
  ([[8, 11, 9, 11, 8, 13, 9, 13], [9, 12, 10, 12, 9, 14, 10, 14]].getD c []).getD (q*2 + d) 0

noncomputable def mesh : Plex where
  dim := 2
  nCells := 2
  ncv := 4
  nfv := 2
  vStart := 2
  vEnd := 8
  fStart := 8
  fEnd := 15
  closure p := p :: edges p ++ verts p
  X := coord
  N f d := if f ≤ 10 then (if d = 0 then 1 else 0) else (if d = 0 then 0 else 1)
  image c q := coord (vert c q)

theorem coord_corner (c q : Nat) (hc : c < 2) (hq : q < 4) :
    coord (vert c q) 0 = (c + q % 2 : Nat) ∧ coord (vert c q) 1 = (q/2 : Nat) := by
  interval_cases c <;> interval_cases q <;> constructor <;> norm_num [vert, coord]

theorem apart (c : Nat) (hc : c < 2) (q : Nat) (hq : q < mesh.ncv) (q' : Nat) (hq' : q' < mesh.ncv)
    (hne : q ≠ q') : 1/10^12 < l1norm (mesh.X (vert c q)) (mesh.X (vert c q')) mesh.dim := by
  have hq1 : q < 4 := hq
  have hq2 : q' < 4 := hq'
  show (1 : ℝ)/10^12 < l1norm (coord (vert c q)) (coord (vert c q')) 2
  rw [l1norm, forN_sumR, Finset.sum_range_succ, Finset.sum_range_succ, Finset.sum_range_zero,
    (coord_corner c q hc hq1).1, (coord_corner c q hc hq1).2, (coord_corner c q' hc hq2).1,
    (coord_corner c q' hc hq2).2]
  interval_cases q <;> interval_cases q' <;> first | exact absurd rfl hne | norm_num

theorem shaped (c : Nat) (hc : c < 2) : Shaped mesh c (vert c) (face c) where
  dim := Or.inl rfl
  corners := rfl
  mem := by
    intro q hq
    have hq' : q < 4 := hq
    interval_cases c <;> interval_cases q <;> decide
  image := fun _ _ => rfl
  only := by
    intro p hp hv
    interval_cases c
    · have hp' : p ∈ [0, 11, 9, 13, 8, 2, 3, 6, 5] := hp
      simp only [List.mem_cons, List.not_mem_nil, or_false] at hp'
      rcases hp' with rfl | rfl | rfl | rfl | rfl | rfl | rfl | rfl | rfl
      all_goals first
        | exact absurd hv (by decide)
        | exact ⟨0, by decide, rfl⟩
        | exact ⟨1, by decide, rfl⟩
        | exact ⟨2, by decide, rfl⟩
        | exact ⟨3, by decide, rfl⟩
    · have hp' : p ∈ [1, 12, 10, 14, 9, 3, 4, 7, 6] := hp
      simp only [List.mem_cons, List.not_mem_nil, or_false] at hp'
      rcases hp' with rfl | rfl | rfl | rfl | rfl | rfl | rfl | rfl | rfl
      all_goals first
        | exact absurd hv (by decide)
        | exact ⟨0, by decide, rfl⟩
        | exact ⟨1, by decide, rfl⟩
        | exact ⟨2, by decide, rfl⟩
        | exact ⟨3, by decide, rfl⟩
  apart := apart c hc
  isFace := by
    intro q hq d hd
    have hq' : q < 4 := hq
    have hd' : d < 2 := hd
    interval_cases c <;> interval_cases q <;> interval_cases d <;> decide
  spans := by
    intro q hq d hd
    have hq' : q < 4 := hq
    have hd' : d < 2 := hd
    interval_cases c <;> interval_cases q <;> interval_cases d <;> decide
  unique := by
    interval_cases c
    · have : ∀ q < 4, ∀ d < 2, ∀ f ∈ [0, 11, 9, 13, 8, 2, 3, 6, 5], mesh.isFace f = true →
          vert 0 q ∈ mesh.closure f → vert 0 (opposite 2 q d) ∈ mesh.closure f → f = face 0 q d := by
        decide
      exact this
    · have : ∀ q < 4, ∀ d < 2, ∀ f ∈ [1, 12, 10, 14, 9, 3, 4, 7, 6], mesh.isFace f = true →
          vert 1 q ∈ mesh.closure f → vert 1 (opposite 2 q d) ∈ mesh.closure f → f = face 1 q d := by
        decide
      exact this

/-- The squares also meet the hypothesis of `C114_side_face`. -/
example : ∀ c < 2, ∀ q < mesh.ncv, ∀ q' < mesh.ncv, ∀ d < mesh.dim, q.testBit d = q'.testBit d →
    vert c q' ∈ mesh.closure (face c q d) := by
  intro c hc q hq q' hq' d hd
  have h1 : q < 4 := hq
  have h2 : q' < 4 := hq'
  have h3 : d < 2 := hd
  interval_cases c <;> interval_cases q <;> interval_cases q' <;> interval_cases d <;> decide

/-- Global numbers: two cells, then two unknowns per edge; edge 10 belongs to another process. -/
def start (p : Nat) : Int := if p < 2 then p else if p = 10 then -(2 + 2*(10 - 8) + 1) else 2 + 2*(p - 8)

theorem blocks : Blocks mesh start where
  faces := by
    intro f g hf hg hne i hi j hj
    have hi' : i < 2 := hi
    have hj' : j < 2 := hj
    rw [Plex.isFace, Bool.and_eq_true, decide_eq_true_eq, decide_eq_true_eq] at hf hg
    simp only [mesh] at hf hg
    have hdec : ∀ p : Nat, 8 ≤ p → p < 15 → decode (start p) = 2 + 2*((p : Int) - 8) := by
      intro p hp hp'
      interval_cases p <;> decide
    rw [hdec f hf.1 hf.2, hdec g hg.1 hg.2]
    omega
  cells := by
    intro c hc f hf i hi
    have hc' : c < 2 := hc
    rw [Plex.isFace, Bool.and_eq_true, decide_eq_true_eq, decide_eq_true_eq] at hf
    simp only [mesh] at hf
    have hdec : decode (start f) = 2 + 2*((f : Int) - 8) := by
      obtain ⟨h1, h2⟩ := hf
      interval_cases f <;> decide
    have hc0 : decode (start c) = c := by
      interval_cases c <;> decide
    rw [hdec, hc0]
    omega

/-- The hypotheses of C114 and C115 are met by two squares that share an edge, one edge of which
belongs to another process. -/
example : 0 < mesh.fStart ∧ Blocks mesh start ∧ (∀ c < mesh.nCells, Shaped mesh c (vert c) (face c))
    ∧ ∀ f, mesh.isFace f = true → ListsVertices mesh f := by
  refine ⟨by decide, blocks, fun c hc => shaped c hc, ?_⟩
  intro f hf
  rw [Plex.isFace, Bool.and_eq_true, decide_eq_true_eq, decide_eq_true_eq] at hf
  simp only [mesh] at hf
  obtain ⟨h1, h2⟩ := hf
  interval_cases f <;> (constructor <;> decide)

/-- The shared edge is across direction 0 of corner 1 of the left cell and of corner 0 of the right
cell. -/
example : face 0 1 0 = face 1 0 0 ∧ vert 0 1 = vert 1 0 := by decide

/-- The same two cells, the second without its last vertex: a quadrilateral and a triangle. -/
noncomputable def mixed : Plex := { mesh with closure := fun p => if p = 1 then [1, 3, 4, 7] else mesh.closure p }

example : setupVertexMap mixed = .ub :=
  C116_violated mixed (Or.inl rfl) 0 1 (by decide) (by decide) (by decide)

example : ∀ c < mesh.nCells, vertexCount mesh c = 4 := by
  intro c hc
  have hc' : c < 2 := hc
  interval_cases c <;> decide

end MapWitness

end TDy.Fe.Props
