import Verif.Spec.Subcells
import Mathlib.Tactic.Ring
import Mathlib.Tactic.NormNum
import Mathlib.Tactic.FinCases
import Mathlib.Data.List.Basic
import Mathlib.Data.Fin.VecNotation

/-!
# C170: Every part of a face is found with its own data
# C171: Velocities are compared with the user's function at their places
-/

namespace TDy.Subcells.Props

open TDy TDy.Subcells TDy.Subcells.Spec

/-! ### Searches -/

/-- The faces of the cell among the first `i` of the vertex. -/
def firstFaces (m : Mesh) (c v i : Nat) : List Nat :=
  ((List.range i).map (m.vFace v)).filter fun f => decide (m.up f = c ∨ m.dn f = c)

theorem firstFaces_succ (m : Mesh) (c v i : Nat) :
    firstFaces m c v (i + 1) = firstFaces m c v i ++
      (if m.up (m.vFace v i) = c ∨ m.dn (m.vFace v i) = c then [m.vFace v i] else []) := by
  unfold firstFaces
  rw [List.range_succ, List.map_append, List.filter_append]
  congr 1
  by_cases h : m.up (m.vFace v i) = c ∨ m.dn (m.vFace v i) = c
  · rw [if_pos h]; simp [h]
  · rw [if_neg h]; simp [h]

theorem shared_spec (m : Mesh) (c v : Nat) :
    ((facesAt m c v).length ≤ 3 → (sharedFaces m c v).num = (facesAt m c v).length ∧
      ∀ d < (facesAt m c v).length, (facesAt m c v)[d]? = some ((sharedFaces m c v).idx d)) ∧
    (3 < (facesAt m c v).length → (sharedFaces m c v).num = 4) := by
  have key := forN_invariant (m.nFaces v) (sharedStep m c v) ⟨0, fun _ => 0, false⟩
    (fun i s =>
      ((firstFaces m c v i).length ≤ 3 → s.num = (firstFaces m c v i).length ∧ s.stop = false ∧
        ∀ d < (firstFaces m c v i).length, (firstFaces m c v i)[d]? = some (s.idx d)) ∧
      (3 < (firstFaces m c v i).length → s.num = 4 ∧ s.stop = true))
    ⟨fun _ => ⟨rfl, rfl, fun d hd => absurd hd (by simp [firstFaces])⟩,
      fun h => absurd h (by simp [firstFaces])⟩
    (by
      intro i s hi ⟨h1, h2⟩
      rw [firstFaces_succ]
      unfold sharedStep
      by_cases hp : m.up (m.vFace v i) = c ∨ m.dn (m.vFace v i) = c
      · rw [if_pos hp, List.length_append, List.length_singleton]
        by_cases hl : 3 < (firstFaces m c v i).length
        · obtain ⟨a, b⟩ := h2 hl
          rw [b, if_pos rfl]
          exact ⟨fun h => by omega, fun _ => ⟨a, b⟩⟩
        · obtain ⟨a, b, e⟩ := h1 (by omega)
          rw [b, if_neg (by decide), if_pos hp]
          by_cases h3 : (firstFaces m c v i).length = 3
          · rw [if_pos (by rw [a, h3])]
            exact ⟨fun h => by omega, fun _ => ⟨by dsimp only; omega, rfl⟩⟩
          · rw [if_neg (by rw [a]; exact h3)]
            refine ⟨fun h => ⟨by dsimp only; omega, rfl, fun d hd => ?_⟩, fun h => by omega⟩
            dsimp only
            by_cases hd' : d < (firstFaces m c v i).length
            · rw [List.getElem?_append_left hd', e d hd', wr_other _ _ (by omega)]
            · obtain rfl : d = (firstFaces m c v i).length := by omega
              rw [List.getElem?_append_right (le_refl _), Nat.sub_self, a, wr_same]
              rfl
      · rw [if_neg hp, List.append_nil]
        by_cases hs : s.stop = true
        · rw [if_pos hs]; exact ⟨h1, h2⟩
        · rw [if_neg hs, if_neg hp]; exact ⟨h1, h2⟩)
  exact ⟨fun h => ⟨(key.1 h).1, (key.1 h).2.2⟩, fun h => (key.2 h).1⟩

/-- C170.  The search for the faces of a cell at a vertex reports three exactly if there are three, and
then gives these. -/
theorem C170_faces_at_vertex (m : Mesh) (c v : Nat) :
    ((sharedFaces m c v).num = 3 ↔ (facesAt m c v).length = 3) ∧
    ((facesAt m c v).length = 3 → [(sharedFaces m c v).idx 0, (sharedFaces m c v).idx 1,
      (sharedFaces m c v).idx 2] = facesAt m c v) := by
  obtain ⟨h1, h2⟩ := shared_spec m c v
  refine ⟨⟨fun h => ?_, fun h => by rw [(h1 (by omega)).1, h]⟩, fun h => ?_⟩
  · by_cases hl : (facesAt m c v).length ≤ 3
    · rw [← (h1 hl).1, h]
    · have := h2 (by omega); omega
  · obtain ⟨-, h3⟩ := h1 (by omega)
    rw [h] at h3
    apply List.ext_getElem?
    intro d
    by_cases hd : d < 3
    · rw [h3 d hd]
      rcases d with _ | _ | _ | d
      · rfl
      · rfl
      · rfl
      · omega
    · rw [List.getElem?_eq_none (by simp; omega), List.getElem?_eq_none (by omega)]

theorem rotated_apply (m : Mesh) (f start : Nat) (hs : start < m.nVerts f) (j : Nat)
    (hj : j < m.nVerts f) : rotated m f start j = m.fVert f ((start + j) % m.nVerts f) := by
  unfold rotated
  by_cases h : j < m.nVerts f - start
  · rw [forN_scatter_other start (fun k => m.nVerts f - start + k) (fun k => m.fVert f k) _ j
      (fun i _ => by omega), forN_fill _ (fun k => m.fVert f (start + k)), if_pos h,
      Nat.mod_eq_of_lt (by omega)]
  · obtain ⟨k, rfl⟩ : ∃ k, j = m.nVerts f - start + k := ⟨j - (m.nVerts f - start), by omega⟩
    rw [forN_scatter start (fun k => m.nVerts f - start + k) (fun k => m.fVert f k) _
      (fun i j _ _ e => by omega) k (by omega),
      show start + (m.nVerts f - start + k) = k + m.nVerts f by omega, Nat.add_mod_right,
      Nat.mod_eq_of_lt (by omega)]

/-- C170.  The search for the neighbours of a vertex of a face gives the vertices after and before it,
going round the face. -/
theorem C170_neighbours (m : Mesh) (f k : Nat) (hk : k < m.nVerts f) (h2 : 2 ≤ m.nVerts f)
    (inj : ∀ i < m.nVerts f, ∀ j < m.nVerts f, m.fVert f i = m.fVert f j → i = j) :
    neighbours m f (m.fVert f k) = some (m.fVert f ((k + 1) % m.nVerts f),
      m.fVert f ((k + m.nVerts f - 1) % m.nVerts f)) := by
  have hf : (List.range (m.nVerts f)).find? (fun i => m.fVert f i == m.fVert f k) = some k := by
    cases h : (List.range (m.nVerts f)).find? (fun i => m.fVert f i == m.fVert f k) with
    | none =>
      have := List.find?_eq_none.1 h k (List.mem_range.2 hk)
      simp at this
    | some i =>
      have a := List.find?_some h
      have b := List.mem_range.1 (List.mem_of_find?_eq_some h)
      rw [inj i b k hk (by simpa using a)]
  unfold neighbours
  rw [hf, Option.map_some, rotated_apply m f k hk 1 (by omega), rotated_apply m f k hk _ (by omega),
    show k + (m.nVerts f - 1) = k + m.nVerts f - 1 by omega]

/-- C170.  A vertex that is not on the face is reported. -/
theorem C170_not_on_face (m : Mesh) (f v : Nat) (h : ∀ k < m.nVerts f, m.fVert f k ≠ v) :
    neighbours m f v = none := by
  unfold neighbours
  rw [List.find?_eq_none.2]
  · rfl
  · intro k hk
    have := h k (List.mem_range.1 hk)
    simpa using this

/-! ### The tables -/

/-- Seen from the inside of the cell, the centres of three faces run around the vertex in the positive sense. -/
def Around (m : Mesh) (c v : Nat) (f : Fin 3 → Nat) : Prop :=
  0 ≤ Geo.dot (Geo.cross (Geo.join (m.fCen (f 0)) (m.fCen (f 1))) (Geo.join (m.fCen (f 0)) (m.fCen (f 2))))
    (Geo.join (m.coord v) (m.cellCen c))

/-- The data of subcell `s` of cell `c`: its faces in the positive sense around its vertex, and for each its
vertex, its share of the area, its gradient vector and (in the table `contin`) the mean of its corners. -/
def Right (m : Mesh) (c s : Nat) (t : Tables) : Prop :=
  ∃ f : Fin 3 → Nat, ([f 0, f 1, f 2].Perm (facesAt m c (m.cellVertex c s)) ∧ Around m c (m.cellVertex c s) f) ∧
    (∀ i : Fin 3,
      t.faceIds (3*(c*m.nSub + s) + i) = f i ∧
      t.vertexIds (3*(c*m.nSub + s) + i) = m.cellVertex c s ∧
      t.faceArea (3*(c*m.nSub + s) + i) = m.area (f i)/(m.nVerts (f i) : ℝ) ∧
      t.nu (3*(c*m.nSub + s) + i) = Mpfao.nuVector m.fCen (m.cellCen c) f i ∧
      IsSubfaceMean m (m.cellVertex c s) (f i) (t.contin (3*(c*m.nSub + s) + i))) ∧
    t.T (c*m.nSub + s) = Mpfao.subcellT m.fCen (m.cellCen c) f

/-- The entries of other subcells are the same. -/
def SameElse (id : Nat) (t t' : Tables) : Prop :=
  (∀ e, (e < 3*id ∨ 3*id + 3 ≤ e) → t'.faceIds e = t.faceIds e ∧ t'.vertexIds e = t.vertexIds e ∧
    t'.faceArea e = t.faceArea e ∧ t'.nu e = t.nu e ∧ t'.contin e = t.contin e) ∧
  ∀ j, j ≠ id → t'.T j = t.T j

theorem order_perm (m : Mesh) (c s : Nat) (h : (facesAt m c (m.cellVertex c s)).length = 3) :
    [order m c s 0, order m c s 1, order m c s 2].Perm (facesAt m c (m.cellVertex c s)) := by
  rw [← (C170_faces_at_vertex m c (m.cellVertex c s)).2 h]
  unfold order Mpfao.orientFaces
  dsimp only
  split
  · exact List.Perm.cons _ (List.Perm.swap _ _ _)
  · exact List.Perm.refl _

theorem order_around (m : Mesh) (c s : Nat) : Around m c (m.cellVertex c s) (order m c s) := by
  unfold Around order Mpfao.orientFaces
  dsimp only
  split
  · rename_i h
    simp only [Matrix.cons_val_zero, Matrix.cons_val_one, Matrix.cons_val]
    simp only [Geo.dot, Geo.cross, Geo.join] at h ⊢
    linarith
  · rename_i h
    exact not_lt.1 h

theorem mean_eq (m : Mesh) (f k : Nat) (hk : k < m.nVerts f) :
    IsSubfaceMean m (m.fVert f k) f (subfaceCen m (m.fVert f k) f
      (m.fVert f ((k + 1) % m.nVerts f), m.fVert f ((k + m.nVerts f - 1) % m.nVerts f))) := by
  refine ⟨k, hk, rfl, ?_⟩
  unfold subfaceCen meanOf mid mean
  norm_num

theorem setupSubcell_ok (m : Mesh) (h : Regular m) (c s : Nat) (hc : c < m.numCells)
    (hs : s < m.nSub) (t : Tables) :
    ∃ t', setupSubcell m c s t = .ok t' ∧ Right m c s t' ∧ SameElse (c*m.nSub + s) t t' ∧
      t'.faceCen = t.faceCen := by
  have h3 := h.three c hc s hs
  have hp := order_perm m c s h3
  have hnum := (C170_faces_at_vertex m c (m.cellVertex c s)).1.2 h3
  have hnb : ∀ i : Fin 3, ∃ n, neighbours m (order m c s i) (m.cellVertex c s) = some n ∧
      IsSubfaceMean m (m.cellVertex c s) (order m c s i)
        (subfaceCen m (m.cellVertex c s) (order m c s i) n) := by
    intro i
    have hi : order m c s i ∈ facesAt m c (m.cellVertex c s) := by
      refine hp.mem_iff.1 ?_
      fin_cases i <;> simp
    obtain ⟨k, hk, hkv⟩ := h.has c hc s hs _ hi
    have a := C170_neighbours m _ k hk (h.two c hc s hs _ hi) (h.distinct c hc s hs _ hi)
    have b := mean_eq m _ k hk
    rw [hkv] at a b
    exact ⟨_, a, b⟩
  obtain ⟨n0, a0, b0⟩ := hnb 0
  obtain ⟨n1, a1, b1⟩ := hnb 1
  obtain ⟨n2, a2, b2⟩ := hnb 2
  let b := 3*(c*m.nSub + s)
  let t' : Tables := ⟨
    wr (wr (wr t.faceIds (b + 0) (order m c s 0 : ℤ)) (b + 1) (order m c s 1 : ℤ)) (b + 2)
      (order m c s 2 : ℤ),
    wr (wr (wr t.vertexIds (b + 0) (m.cellVertex c s : ℤ)) (b + 1) (m.cellVertex c s : ℤ)) (b + 2)
      (m.cellVertex c s : ℤ),
    wr (wr (wr t.faceArea (b + 0) (m.area (order m c s 0)/(m.nVerts (order m c s 0) : ℝ))) (b + 1)
      (m.area (order m c s 1)/(m.nVerts (order m c s 1) : ℝ))) (b + 2)
      (m.area (order m c s 2)/(m.nVerts (order m c s 2) : ℝ)),
    wr (wr (wr t.nu (b + 0) (Mpfao.nuVector m.fCen (m.cellCen c) (order m c s) 0)) (b + 1)
      (Mpfao.nuVector m.fCen (m.cellCen c) (order m c s) 1)) (b + 2)
      (Mpfao.nuVector m.fCen (m.cellCen c) (order m c s) 2),
    wr (wr (wr t.contin (b + 0) (subfaceCen m (m.cellVertex c s) (order m c s 0) n0)) (b + 1)
      (subfaceCen m (m.cellVertex c s) (order m c s 1) n1)) (b + 2)
      (subfaceCen m (m.cellVertex c s) (order m c s 2) n2),
    t.faceCen, wr t.T (c*m.nSub + s) (Mpfao.subcellT m.fCen (m.cellCen c) (order m c s))⟩
  refine ⟨t', ?_, ⟨order m c s, ⟨hp, order_around m c s⟩, ?_, ?_⟩, ⟨?_, ?_⟩, rfl⟩
  · rw [setupSubcell, if_neg (by simpa using hnum)]
    simp only [forN, Res.bind, writeFace, nth, if_true, if_false, one_ne_zero, OfNat.ofNat_ne_zero,
      OfNat.ofNat_ne_one, a0, a1, a2, writeFaceCentroid, writeIds, fin]
    rfl
  · intro i
    fin_cases i
    · simpa [wr, t', b] using b0
    · simpa [wr, t', b] using b1
    · simpa [wr, t', b] using b2
  · simp [wr, t']
  · intro e he
    have e0 : e ≠ b + 0 := by omega
    have e1 : e ≠ b + 1 := by omega
    have e2 : e ≠ b + 2 := by omega
    simp only [wr, e0, e1, e2, if_false, and_self, t']
  · intro j hj
    simp [wr, hj, t']

theorem right_same (m : Mesh) (c s id : Nat) (t t' : Tables) (h : Right m c s t)
    (hs : SameElse id t t') (hne : c*m.nSub + s ≠ id) : Right m c s t' := by
  obtain ⟨f, h1, h2, h3⟩ := h
  refine ⟨f, h1, fun i => ?_, by rw [hs.2 _ hne]; exact h3⟩
  have hi := i.isLt
  obtain ⟨g1, g2, g3, g4, g5⟩ := hs.1 (3*(c*m.nSub + s) + i) (by omega)
  rw [g1, g2, g3, g4, g5]
  exact h2 i

/-- The subcells before number `k` are right. -/
def Done (m : Mesh) (k : Nat) (t : Tables) : Prop :=
  (∀ c < m.numCells, ∀ s < m.nSub, c*m.nSub + s < k → Right m c s t) ∧
    t.faceCen = fun _ => ⟨0, 0, 0⟩

theorem lt_of_lex (n c c' s s' : Nat) (hs : s < n) (hs' : s' < n)
    (h : c*n + s = c'*n + s') : c = c' ∧ s = s' := by
  have h1 : (c*n + s)/n = c := by rw [Nat.mul_comm, Nat.mul_add_div (by omega), Nat.div_eq_of_lt hs]; rfl
  have h2 : (c'*n + s')/n = c' := by
    rw [Nat.mul_comm, Nat.mul_add_div (by omega), Nat.div_eq_of_lt hs']; rfl
  have hc : c = c' := by rw [← h1, ← h2, h]
  subst hc
  exact ⟨rfl, by omega⟩

theorem setup_done (m : Mesh) (h : Regular m) :
    ∃ t, setup m = .ok t ∧ Done m (m.numCells*m.nSub) t := by
  have key := forN_invariant m.numCells
    (fun c r => forN m.nSub (fun s r => Res.bind r (setupSubcell m c s)) r) (.ok allocated)
    (fun c r => ∃ t, r = .ok t ∧ Done m (c*m.nSub) t)
    ⟨allocated, rfl, fun c _ s _ hk => absurd hk (by omega), rfl⟩
    (by
      intro c r hc hr
      have inner := forN_invariant m.nSub (fun s r => Res.bind r (setupSubcell m c s)) r
        (fun s r => ∃ t, r = .ok t ∧ Done m (c*m.nSub + s) t) (by simpa using hr)
        (by
          rintro s r hs ⟨t, rfl, hd, hz⟩
          obtain ⟨t', e1, e2, e3, e4⟩ := setupSubcell_ok m h c s hc hs t
          refine ⟨t', e1, fun c' hc' s' hs' hk => ?_, by rw [e4, hz]⟩
          by_cases hq : c'*m.nSub + s' = c*m.nSub + s
          · obtain ⟨rfl, rfl⟩ := lt_of_lex _ _ _ _ _ hs' hs hq
            exact e2
          · exact right_same m c' s' _ t t' (hd c' hc' s' hs' (by omega)) e3 hq)
      rw [Nat.add_mul, Nat.one_mul]
      exact inner)
  exact key

/-- C170.  On a mesh where every cell has three faces at each of its vertices, the set-up succeeds, and
every part of a face has its own data: the faces, the vertex, the share of the area, the vector of the
gradient, and the mean of its corners.  The last is in a table that no reader of it reads, see
`C170_centroids_never_written`. -/
theorem C170_tables_partial (m : Mesh) (h : Regular m) :
    ∃ t, setup m = .ok t ∧ ∀ c < m.numCells, ∀ s < m.nSub, Right m c s t := by
  obtain ⟨t, h1, h2, -⟩ := setup_done m h
  refine ⟨t, h1, fun c hc s hs => h2 c hc s hs ?_⟩
  have : (c + 1)*m.nSub ≤ m.numCells*m.nSub := Nat.mul_le_mul_right _ hc
  rw [Nat.add_mul, Nat.one_mul] at this
  omega

/-- C170.  The centroid of every part of a face reads as the origin. -/
theorem C170_centroids_never_written (m : Mesh) (h : Regular m) :
    ∃ t, setup m = .ok t ∧ ∀ id, ∀ i < 3, ithFaceCentroid t id i = some ⟨0, 0, 0⟩ := by
  obtain ⟨t, h1, -, h3⟩ := setup_done m h
  refine ⟨t, h1, fun id i hi => ?_⟩
  unfold ithFaceCentroid
  rw [if_neg (by omega), h3]

/-- C170.  A vertex at which a cell has another number of faces is not refused: undefined. -/
theorem C170_other_numbers_undefined (m : Mesh) (c s : Nat)
    (h : (facesAt m c (m.cellVertex c s)).length ≠ 3) (t : Tables) : setupSubcell m c s t = .ub := by
  unfold setupSubcell
  rw [if_pos]
  exact fun e => h ((C170_faces_at_vertex m c _).1.1 e)

/-- C170.  Each face of a subcell is found at its place, and vectors are those of the place. -/
theorem C170_lookup (m : Mesh) (h : Regular m) :
    ∃ t, setup m = .ok t ∧ ∀ c < m.numCells, ∀ s < m.nSub,
      ∀ f ∈ facesAt m c (m.cellVertex c s), ∃ i < 3,
        faceIndex t (c*m.nSub + s) f = some i ∧
        t.faceArea (3*(c*m.nSub + s) + i) = m.area f/(m.nVerts f : ℝ) ∧
        ∃ g : Fin 3 → Nat, nth g i = f ∧
          ithNu t (c*m.nSub + s) i = some (Mpfao.nuVector m.fCen (m.cellCen c) g (fin i)) := by
  obtain ⟨t, h1, h2⟩ := C170_tables_partial m h
  refine ⟨t, h1, fun c hc s hs f hf => ?_⟩
  obtain ⟨g, ⟨hp, -⟩, hg, -⟩ := h2 c hc s hs
  have hnd : [g 0, g 1, g 2].Nodup := hp.nodup_iff.2 (h.nodup c hc s hs)
  have hm := hp.mem_iff.2 hf
  simp only [List.nodup_cons, List.mem_cons, List.not_mem_nil, or_false, not_or, not_false_eq_true,
    List.nodup_nil, and_true] at hnd
  obtain ⟨⟨n1, n2⟩, n3⟩ := hnd
  obtain ⟨a0, -, c0, d0, -⟩ := hg 0
  obtain ⟨a1, -, c1, d1, -⟩ := hg 1
  obtain ⟨a2, -, c2, d2, -⟩ := hg 2
  simp only [Fin.val_zero, Fin.val_one, Fin.val_two] at a0 a1 a2 c0 c1 c2 d0 d1 d2
  have hr : List.range 3 = [0, 1, 2] := rfl
  simp only [List.mem_cons, List.not_mem_nil, or_false] at hm
  rcases hm with rfl | rfl | rfl
  · refine ⟨0, by omega, ?_, c0, g, rfl, ?_⟩
    · unfold faceIndex
      rw [hr, List.find?_cons_of_pos]
      rw [a0]; simp
    · unfold ithNu; rw [if_neg (by omega), d0]; rfl
  · refine ⟨1, by omega, ?_, c1, g, rfl, ?_⟩
    · unfold faceIndex
      rw [hr, List.find?_cons_of_neg, List.find?_cons_of_pos]
      · rw [a1]; simp
      · rw [a0]; simpa using n1
    · unfold ithNu; rw [if_neg (by omega), d1]; rfl
  · refine ⟨2, by omega, ?_, c2, g, rfl, ?_⟩
    · unfold faceIndex
      rw [hr, List.find?_cons_of_neg, List.find?_cons_of_neg, List.find?_cons_of_pos]
      · rw [a2]; simp
      · rw [a1]; simpa using n3
      · rw [a0]; simpa using n2
    · unfold ithNu; rw [if_neg (by omega), d2]; rfl

/-- C170.  The subcell of a cell at a vertex is found. -/
theorem C170_find_subcell (m : Mesh) (cells : List (Nat × Nat)) (hn : (cells.map Prod.fst).Nodup)
    (c s : Nat) (h : (c, s) ∈ cells) : findSubcell m cells c = some (c*m.nSub + s) := by
  unfold findSubcell
  have : cells.find? (fun p => p.1 == c) = some (c, s) := by
    induction cells with
    | nil => cases h
    | cons p ps ih =>
      rw [List.map_cons, List.nodup_cons] at hn
      rcases List.mem_cons.1 h with h | h
      · subst h; rw [List.find?_cons_of_pos]; simp
      · rw [List.find?_cons_of_neg]
        · exact ih hn.2 h
        · intro e
          have e' : p.1 = c := by simpa using e
          exact hn.1 (List.mem_map.2 ⟨(c, s), h, e'.symm⟩)
  rw [this]
  rfl

/-! ### A cube -/

/-- Bit `i` of a number. -/
def bit (v i : Nat) : Nat := v / 2^i % 2

/-- Vertices of face `x = 0`, `x = 1`, `y = 0` and so on of the unit cube, in order. -/
def cubeFace (f k : Nat) : Nat :=
  (([[0, 2, 6, 4], [1, 3, 7, 5], [0, 1, 5, 4], [2, 3, 7, 6], [0, 1, 3, 2], [4, 5, 7, 6]].getD f []).getD
    k 0)

/-- The cube of side two about the point (1, 1, 1), as one cell. -/
noncomputable def cube : Mesh where
  numCells := 1
  nSub := 8
  cellVertex := fun _ s => s
  cellCen := fun _ => ⟨1, 1, 1⟩
  coord := fun v => ⟨2*bit v 0, 2*bit v 1, 2*bit v 2⟩
  nFaces := fun _ => 3
  vFace := fun v i => 2*i + bit v i
  up := fun _ => 0
  dn := fun f => -1 - f
  nVerts := fun _ => 4
  fVert := cubeFace
  fCen := fun f => ⟨if f = 0 then 0 else if f = 1 then 2 else 1, if f = 2 then 0 else if f = 3 then 2 else 1,
    if f = 4 then 0 else if f = 5 then 2 else 1⟩
  area := fun _ => 4

theorem cube_faces (s : Nat) (hs : s < 8) :
    facesAt cube 0 s = [bit s 0, 2 + bit s 1, 4 + bit s 2] := by
  have : ∀ s < 8, ((List.range 3).map fun i => 2*i + bit s i).filter
      (fun f : Nat => decide ((0 : ℤ) = ((0 : Nat) : ℤ) ∨ (-1 - (f : ℤ)) = ((0 : Nat) : ℤ)))
        = [bit s 0, 2 + bit s 1, 4 + bit s 2] := by decide
  exact this s hs

theorem cube_regular : Regular cube := by
  have bits : ∀ s < 8, ∀ f ∈ [bit s 0, 2 + bit s 1, 4 + bit s 2], ∃ k < 4, cubeFace f k = s := by
    decide
  have inj : ∀ s < 8, ∀ f ∈ [bit s 0, 2 + bit s 1, 4 + bit s 2], ∀ j < 4, ∀ k < 4,
      cubeFace f j = cubeFace f k → j = k := by decide
  have nd : ∀ s < 8, [bit s 0, 2 + bit s 1, 4 + bit s 2].Nodup := by decide
  refine ⟨?_, ?_, ?_, ?_, ?_⟩
  · intro c hc s hs
    obtain rfl : c = 0 := Nat.lt_one_iff.1 hc
    rw [show cube.cellVertex 0 s = s from rfl, cube_faces s hs]
    rfl
  · intro c hc s hs
    obtain rfl : c = 0 := Nat.lt_one_iff.1 hc
    rw [show cube.cellVertex 0 s = s from rfl, cube_faces s hs]
    exact nd s hs
  · intro c hc s hs f hf
    obtain rfl : c = 0 := Nat.lt_one_iff.1 hc
    rw [show cube.cellVertex 0 s = s from rfl, cube_faces s hs] at hf
    exact bits s hs f hf
  · intro _ _ _ _ _ _
    show 2 ≤ 4
    decide
  · intro c hc s hs f hf
    obtain rfl : c = 0 := Nat.lt_one_iff.1 hc
    rw [show cube.cellVertex 0 s = s from rfl, cube_faces s hs] at hf
    exact inj s hs f hf

/-- The hypotheses are met by a cube. -/
example : ∃ t, setup cube = .ok t ∧ Right cube 0 5 t := by
  obtain ⟨t, h1, h2⟩ := C170_tables_partial cube cube_regular
  exact ⟨t, h1, h2 0 (by decide) 5 (by decide)⟩

theorem cube_centres (s : Nat) (hs : s < 8) (f : Nat) (hf : f ∈ facesAt cube 0 s) (X : Geo.P3)
    (h : IsSubfaceMean cube s f X) : 0 < X.x + X.y + X.z := by
  obtain ⟨k, hk, hks, rfl⟩ := h
  rw [cube_faces s hs] at hf
  have nn : ∀ v i, (0 : ℝ) ≤ bit v i := fun v i => Nat.cast_nonneg _
  have hc : (2 : ℝ) ≤ (cube.fCen f).x + (cube.fCen f).y + (cube.fCen f).z := by
    show (2 : ℝ) ≤ (if f = 0 then 0 else if f = 1 then 2 else 1) +
      (if f = 2 then 0 else if f = 3 then 2 else 1) + (if f = 4 then 0 else if f = 5 then 2 else 1)
    split_ifs <;> first | omega | norm_num
  simp only [meanOf, mid]
  have p : ∀ v, 0 ≤ (cube.coord v).x ∧ 0 ≤ (cube.coord v).y ∧ 0 ≤ (cube.coord v).z := by
    intro v
    have h0 := nn v 0; have h1 := nn v 1; have h2 := nn v 2
    refine ⟨?_, ?_, ?_⟩
    · show (0 : ℝ) ≤ 2*bit v 0
      positivity
    · show (0 : ℝ) ≤ 2*bit v 1
      positivity
    · show (0 : ℝ) ≤ 2*bit v 2
      positivity
  obtain ⟨q1, q2, q3⟩ := p s
  obtain ⟨r1, r2, r3⟩ := p (cube.fVert f ((k + 1) % cube.nVerts f))
  obtain ⟨u1, u2, u3⟩ := p (cube.fVert f ((k + cube.nVerts f - 1) % cube.nVerts f))
  linarith

/-- C170.  The full property is false: of no part of a face of a cube is the centroid read as the mean
of its corners. -/
theorem C170_violated : ∃ m : Mesh, Regular m ∧ 0 < m.numCells ∧ 0 < m.nSub ∧ ∃ t, setup m = .ok t ∧
    ∀ c < m.numCells, ∀ s < m.nSub, ∀ f ∈ facesAt m c (m.cellVertex c s), ∀ i < 3,
      ∀ X, ithFaceCentroid t (c*m.nSub + s) i = some X → ¬ IsSubfaceMean m (m.cellVertex c s) f X := by
  obtain ⟨t, h1, h2⟩ := C170_centroids_never_written cube cube_regular
  refine ⟨cube, cube_regular, by decide, by decide, t, h1, fun c hc s hs f hf i hi X hX hm => ?_⟩
  obtain rfl : c = 0 := Nat.lt_one_iff.1 hc
  rw [h2 _ i hi] at hX
  injection hX with hX
  subst hX
  have := cube_centres s hs f hf _ hm
  simp at this

/-! ### Comparison with the velocity function -/

/-- C171.  The value a velocity is compared with depends on the user's function at the origin only. -/
theorem C171_origin_only (m : Mesh) (h : Regular m) :
    ∃ t, setup m = .ok t ∧ ∀ cells normal V V', V ⟨0, 0, 0⟩ = V' ⟨0, 0, 0⟩ →
      velRef m t cells normal V = velRef m t cells normal V' := by
  obtain ⟨t, h1, -, h3⟩ := setup_done m h
  refine ⟨t, h1, fun cells normal V V' hV => ?_⟩
  funext v c f
  unfold velRef
  split
  · rfl
  · split
    · rfl
    · unfold ithFaceCentroid
      split_ifs
      · rfl
      · dsimp only
        rw [h3, hV]

/-- C171.  Hence so does the error that is printed, on any number of processes. -/
theorem C171_report_origin_only (m : Mesh) (h : Regular m) :
    ∃ t, setup m = .ok t ∧ ∀ cells normal V V', V ⟨0, 0, 0⟩ = V' ⟨0, 0, 0⟩ →
      ∀ ws : List (Mpfao.VelIn × Mpfao.VelSt),
        Mpfao.velReport (ws.map fun w => Mpfao.recoverVelocity
            { w.1 with ref := some (velRef m t cells normal V) } w.2)
          = Mpfao.velReport (ws.map fun w => Mpfao.recoverVelocity
            { w.1 with ref := some (velRef m t cells normal V') } w.2) := by
  obtain ⟨t, h1, h2⟩ := C171_origin_only m h
  refine ⟨t, h1, fun cells normal V V' hV ws => ?_⟩
  rw [h2 cells normal V V' hV]

/-- C171.  For a constant function the value is right: the velocity times the normal, times the share of
the area. -/
theorem C171_constant_partial (m : Mesh) (h : Regular m) :
    ∃ t, setup m = .ok t ∧ ∀ cells normal U, ∀ c < m.numCells, ∀ s < m.nSub,
      ((cells (m.cellVertex c s)).map Prod.fst).Nodup → (c, s) ∈ cells (m.cellVertex c s) →
      ∀ f ∈ facesAt m c (m.cellVertex c s),
        velRef m t cells normal (fun _ => U) (m.cellVertex c s) c f
          = Geo.dot U (normal f) * (m.area f/(m.nVerts f : ℝ)) := by
  obtain ⟨t, h1, h2⟩ := C170_lookup m h
  refine ⟨t, h1, fun cells normal U c hc s hs hn hm f hf => ?_⟩
  obtain ⟨i, hi, h4, h5, -⟩ := h2 c hc s hs f hf
  unfold velRef
  rw [show (c : ℤ).toNat = c from rfl, C170_find_subcell m _ hn c s hm]
  dsimp only
  rw [h4]
  dsimp only
  unfold ithFaceCentroid
  rw [if_neg (by omega)]
  dsimp only
  rw [h5]

/-- The hypotheses are met: a constant velocity on the cube. -/
example (normal : Nat → Geo.P3) (U : Geo.P3) : ∃ t, setup cube = .ok t ∧
    velRef cube t (fun v => [(0, v)]) normal (fun _ => U) 5 (0 : Nat) 1
      = Geo.dot U (normal 1) * (4/(4 : Nat)) := by
  obtain ⟨t, h1, h2⟩ := C171_constant_partial cube cube_regular
  refine ⟨t, h1, h2 (fun v => [(0, v)]) normal U 0 (by decide) 5 (by decide) (by decide)
    (List.mem_singleton.2 rfl) 1 ?_⟩
  rw [show cube.cellVertex 0 5 = 5 from rfl, cube_faces 5 (by decide)]
  decide

/-- C171.  The full property is false: two functions that differ at every part of a face (a flow along
x that grows with the distance, and no flow) give the same error, for all recovered velocities. -/
theorem C171_violated : ∃ (m : Mesh) (V V' : Geo.P3 → Geo.P3), Regular m ∧
    (∀ c < m.numCells, ∀ s < m.nSub, ∀ f ∈ facesAt m c (m.cellVertex c s), ∀ X,
      IsSubfaceMean m (m.cellVertex c s) f X → V X ≠ V' X) ∧
    ∃ t, setup m = .ok t ∧ ∀ cells normal, ∀ ws : List (Mpfao.VelIn × Mpfao.VelSt),
        Mpfao.velReport (ws.map fun w => Mpfao.recoverVelocity
            { w.1 with ref := some (velRef m t cells normal V) } w.2)
          = Mpfao.velReport (ws.map fun w => Mpfao.recoverVelocity
            { w.1 with ref := some (velRef m t cells normal V') } w.2) := by
  obtain ⟨t, h1, h2⟩ := C171_report_origin_only cube cube_regular
  refine ⟨cube, fun X => ⟨X.x + X.y + X.z, 0, 0⟩, fun _ => ⟨0, 0, 0⟩, cube_regular, ?_, t, h1,
    fun cells normal ws => h2 cells normal _ _ (by simp) ws⟩
  intro c hc s hs f hf X hX e
  obtain rfl : c = 0 := Nat.lt_one_iff.1 hc
  have := cube_centres s hs f hf X hX
  injection e with e _ _
  exact absurd e this.ne'

end TDy.Subcells.Props
