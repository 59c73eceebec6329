import Verif.Proofs.MeshTables

/-!
# C61: mesh queries return the right slices
-/

namespace TDy.Mesh.Props

open TDy
open Spec (Loose Sound recorded)
open Proofs

/-- C61 (one table).  Squeezing a table keeps every entity's recorded entries, in order, and the
accessors return exactly them, in non-overlapping slices inside the array.  Memory behind the array
is not touched. -/
theorem C61_squeeze_sound {α : Type} (blank : α) (n size : Nat) (t : Table α) (hn : 0 < n)
    (h : Loose n size t) :
    Sound n size t (squeeze blank n size true t).off (squeeze blank n size true t).ids
      ∧ (∀ i, size * n ≤ i → (squeeze blank n size true t).ids i = t.ids i) := by
  refine ⟨sound n size t h _ _ (squeeze_off blank n size t hn h)
    (fun e he k hk => squeeze_ids blank n size true t hn h e k he hk), ?_⟩
  intro i hi
  have hp := pre_le t.num size n h.room n (le_refl n)
  rw [mul_comm n size] at hp
  rw [squeeze_tail blank n size true t hn h i (by omega), if_neg (by omega)]

/-- C61 (cells).  After the conversion the vertex, edge, neighbour and face queries of every cell,
the last one included, return what was recorded for that cell. -/
theorem C61_cell_queries (n nv ne nn nf : Nat) (c : CellTables) (hn : 0 < n)
    (hv : Loose n nv c.vertices) (he : Loose n ne c.edges) (hnb : Loose n nn c.neighbors)
    (hf : Loose n nf c.faces) :
    Sound n nv c.vertices (convertCells n nv ne nn nf c).vertices.off
        (convertCells n nv ne nn nf c).vertices.ids
      ∧ Sound n ne c.edges (convertCells n nv ne nn nf c).edges.off
        (convertCells n nv ne nn nf c).edges.ids
      ∧ Sound n nn c.neighbors (convertCells n nv ne nn nf c).neighbors.off
        (convertCells n nv ne nn nf c).neighbors.ids
      ∧ Sound n nf c.faces (convertCells n nv ne nn nf c).faces.off
        (convertCells n nv ne nn nf c).faces.ids :=
  ⟨(C61_squeeze_sound _ n nv _ hn hv).1, (C61_squeeze_sound _ n ne _ hn he).1,
    (C61_squeeze_sound _ n nn _ hn hnb).1, (C61_squeeze_sound _ n nf _ hn hf).1⟩

/-- C61 (vertices).  The same for the edges, faces, subfaces, cells, subcells and boundary faces of
every vertex.  The two pairs of lists that share a count stay aligned: entry `k` of the subface
slice is the one recorded with entry `k` of the face slice. -/
theorem C61_vertex_queries (n cellsPer facesPer edgesPer : Nat) (v : VertexTables) (hn : 0 < n)
    (he : Loose n edgesPer (⟨v.numEdges, v.edgeOff, v.edgeIds⟩ : Table Int))
    (hf : Loose n facesPer (⟨v.numFaces, v.faceOff, v.faceIds⟩ : Table Int))
    (hc : Loose n cellsPer (⟨v.numCells, v.cellOff, v.cellIds⟩ : Table Int))
    (hs : Loose n facesPer (⟨v.numCells, v.subcellOff, v.subcellIds⟩ : Table Int))
    (hb : Loose n facesPer (⟨v.numBoundary, v.boundaryOff, v.boundaryIds⟩ : Table Int)) :
    Sound n edgesPer (⟨v.numEdges, v.edgeOff, v.edgeIds⟩ : Table Int)
        (convertVertices n cellsPer facesPer edgesPer v).edgeOff
        (convertVertices n cellsPer facesPer edgesPer v).edgeIds
      ∧ Sound n facesPer (⟨v.numFaces, v.faceOff, v.faceIds⟩ : Table Int)
        (convertVertices n cellsPer facesPer edgesPer v).faceOff
        (convertVertices n cellsPer facesPer edgesPer v).faceIds
      ∧ Sound n facesPer (⟨v.numFaces, v.faceOff, v.subfaceIds⟩ : Table Int)
        (convertVertices n cellsPer facesPer edgesPer v).faceOff
        (convertVertices n cellsPer facesPer edgesPer v).subfaceIds
      ∧ Sound n cellsPer (⟨v.numCells, v.cellOff, v.cellIds⟩ : Table Int)
        (convertVertices n cellsPer facesPer edgesPer v).cellOff
        (convertVertices n cellsPer facesPer edgesPer v).cellIds
      ∧ Sound n facesPer (⟨v.numCells, v.subcellOff, v.subcellIds⟩ : Table Int)
        (convertVertices n cellsPer facesPer edgesPer v).subcellOff
        (convertVertices n cellsPer facesPer edgesPer v).subcellIds
      ∧ Sound n facesPer (⟨v.numBoundary, v.boundaryOff, v.boundaryIds⟩ : Table Int)
        (convertVertices n cellsPer facesPer edgesPer v).boundaryOff
        (convertVertices n cellsPer facesPer edgesPer v).boundaryIds := by
  have hfn := squeeze_num (-1 : Int) n facesPer false ⟨v.numFaces, v.faceOff, v.faceIds⟩ hn hf
  have hfo : (squeeze (-1 : Int) n facesPer false ⟨v.numFaces, v.faceOff, v.faceIds⟩).off
      = v.faceOff :=
    funext (fun e => squeeze_off_keep (-1 : Int) n facesPer ⟨v.numFaces, v.faceOff, v.faceIds⟩ hn hf e)
  have hcn := squeeze_num (-1 : Int) n cellsPer true ⟨v.numCells, v.cellOff, v.cellIds⟩ hn hc
  have hsf : Loose n facesPer (⟨v.numFaces, v.faceOff, v.subfaceIds⟩ : Table Int) :=
    ⟨hf.layout, hf.room⟩
  refine ⟨(C61_squeeze_sound _ n edgesPer _ hn he).1, ?_, ?_,
    (C61_squeeze_sound _ n cellsPer _ hn hc).1, ?_, (C61_squeeze_sound _ n facesPer _ hn hb).1⟩
  · refine sound n facesPer _ hf _ _ ?_
      (fun e he k hk => squeeze_ids (-1 : Int) n facesPer false _ hn hf e k he hk)
    intro e he
    simp only [convertVertices, hfn, hfo]
    exact squeeze_off (-1 : Int) n facesPer _ hn hsf e he
  · have := (C61_squeeze_sound (-1 : Int) n facesPer _ hn hsf).1
    simp only [convertVertices, hfn, hfo]
    exact this
  · have := (C61_squeeze_sound (-1 : Int) n facesPer _ hn hs).1
    simp only [convertVertices, hcn]
    exact this

/-- C61 (vertices of faces).  The vertex query is right for every face, the last one included:
although the allocation leaves the closing offset unset, the conversion sets it. -/
theorem C61_face_vertex_queries (n vertsPer : Nat) (f : FaceTables) (hn : 0 < n)
    (hoff : f.vertices.off = allocFaceOffsets n vertsPer) (hnum : ∀ e < n, f.vertices.num e ≤ vertsPer) :
    Sound n vertsPer f.vertices (convertFaces n vertsPer f).vertices.off
      (convertFaces n vertsPer f).vertices.ids := by
  refine (C61_squeeze_sound _ n vertsPer _ hn ⟨?_, hnum⟩).1
  intro e he
  rw [hoff, allocFaceOffsets_apply, if_pos he]

/-- C61 (cells of faces, violation).  On every mesh with at least one face, the number of cells
reported for the last face is negative, and so is its number of edges: the closing offsets keep the
-1 of the allocation and no later step sets them. -/
theorem C61_last_face_violated (n cellsPer edgesPer vertsPer : Nat) (hn : 0 < n) :
    (access (convertFaces n vertsPer (allocFaces n cellsPer edgesPer vertsPer)).cellOff (n - 1)).count < 0
      ∧ (access (convertFaces n vertsPer (allocFaces n cellsPer edgesPer vertsPer)).edgeOff
          (n - 1)).count < 0 := by
  have key : ∀ size, (access (allocFaceOffsets n size) (n - 1)).count < 0 := by
    intro size
    simp only [access]
    rw [allocFaceOffsets_apply, allocFaceOffsets_apply, Nat.sub_add_cancel hn, if_neg (by omega),
      if_pos (by omega)]
    have : (0 : Int) ≤ (((n - 1) * size : Nat) : Int) := by positivity
    omega
  exact ⟨key cellsPer, key edgesPer⟩

/-- C61 (cells of faces, what holds).  Every face but the last gets its own slice of `cellsPer`
cell slots.  Missing: the last face. -/
theorem C61_face_cell_queries_partial (n cellsPer edgesPer vertsPer : Nat) (f : Nat)
    (hf : f + 1 < n) :
    access (convertFaces n vertsPer (allocFaces n cellsPer edgesPer vertsPer)).cellOff f
      = ⟨((f * cellsPer : Nat) : Int), cellsPer⟩ := by
  simp only [access, convertFaces, allocFaces]
  rw [allocFaceOffsets_apply, allocFaceOffsets_apply, if_pos (by omega), if_pos (by omega)]
  congr 1
  push_cast
  ring

/-- C61 (subcells).  The nu-vector query is right for every subcell. -/
theorem C61_subcell_nu_vectors (n s : Nat) (hs : s < n) :
    subcellNuVectors (allocSubcells n) s = ⟨((s * 3 : Nat) : Int), 3⟩ := by
  simp only [subcellNuVectors, allocSubcells]
  rw [allocOffsets_apply n 3 s (by omega), allocOffsets_apply n 3 (s + 1) (by omega)]
  congr 1
  push_cast
  ring

/-- C61 (subcells, violation).  The query for the eight vertex coordinates of a subcell returns
three of them, and for every subcell but the first they are those of another subcell: the slice ends
before the subcell's own coordinates begin. -/
theorem C61_subcell_coordinates_violated (n s : Nat) (hs : s < n) (h0 : 0 < s) :
    (subcellVerticesCoordinates (allocSubcells n) s).count = 3
      ∧ (subcellVerticesCoordinates (allocSubcells n) s).start
          + (subcellVerticesCoordinates (allocSubcells n) s).count
          ≤ (access (allocSubcells n).vertex s).start
      ∧ (access (allocSubcells n).vertex s).count = 8 := by
  simp only [subcellVerticesCoordinates, allocSubcells, access]
  rw [allocOffsets_apply n 3 s (by omega), allocOffsets_apply n 3 (s + 1) (by omega),
    allocOffsets_apply n 8 s (by omega), allocOffsets_apply n 8 (s + 1) (by omega)]
  push_cast
  refine ⟨by ring, by omega, by ring⟩

theorem pre_const (num : Nat → Nat) (size n : Nat) (h : ∀ e < n, num e = size) (m : Nat) (hm : m ≤ n) :
    pre num m = m*size := by
  induction m with
  | zero => simp [pre]
  | succ m ih =>
    rw [pre_succ, ih (by omega), h m (by omega)]
    ring

/-- A full table is squeezed to itself. -/
theorem squeeze_full {α : Type} (blank : α) (n size : Nat) (u : Bool) (t : Table α) (hn : 0 < n)
    (hoff : ∀ e ≤ n, t.off e = ((e*size : Nat) : Int)) (hnum : ∀ e < n, t.num e = size) :
    (squeeze blank n size u t).num = t.num
      ∧ (∀ e ≤ n, (squeeze blank n size u t).off e = ((e*size : Nat) : Int))
      ∧ ∀ i < n*size, (squeeze blank n size u t).ids i = t.ids i := by
  have hl : Loose n size t := ⟨fun e he => hoff e (by omega), fun e he => (hnum e he).le⟩
  refine ⟨squeeze_num blank n size u t hn hl, fun e he => ?_, fun i hi => ?_⟩
  · cases u with
    | true => rw [squeeze_off blank n size t hn hl e he, pre_const t.num size n hnum e he]
    | false => rw [squeeze_off_keep blank n size t hn hl e, hoff e he]
  · have hs : 0 < size := Nat.pos_of_ne_zero (by rintro rfl; simp at hi)
    have he : i/size < n := Nat.div_lt_of_lt_mul (by rwa [Nat.mul_comm] at hi)
    have h1 := squeeze_ids blank n size u t hn hl (i/size) (i % size) he
      (by rw [hnum _ he]; exact Nat.mod_lt _ hs)
    rw [pre_const t.num size n hnum _ (by omega), Nat.mul_comm, Nat.div_add_mod] at h1
    exact h1

/-- Two tables have the same entries in their first `n` places. -/
def SameBelow {α : Type} (n : Nat) (a b : Nat → α) : Prop := ∀ i < n, a i = b i

section Subcells

attribute [local irreducible] squeeze

/-- C61 (tables of the subcells).  The conversion of the tables of the subcells, all of which are full,
leaves every entry and every offset where it is: subcell `e` keeps the places `nf*e`, ..., of its faces,
`nn*e`, ..., of its vectors and `nv*e`, ..., of its vertices. -/
theorem C61_subcell_tables {R V : Type} (blankR : R) (blankV : V) (n nf nn nv : Nat) (hn : 0 < n)
    (s : SubcellTables R V)
    (hoff : s.off = ⟨allocOffsets n nn, allocOffsets n nv, allocOffsets n nf⟩)
    (hf : ∀ e < n, s.numFaces e = nf) (hu : ∀ e < n, s.numNu e = nn) (hv : ∀ e < n, s.numVertices e = nv) :
    let t := convertSubcells blankR blankV n nf nn nv s
    (∀ e < n, access t.off.face e = ⟨((e*nf : Nat) : Int), nf⟩
      ∧ access t.off.nuVector e = ⟨((e*nn : Nat) : Int), nn⟩
      ∧ access t.off.vertex e = ⟨((e*nv : Nat) : Int), nv⟩
      ∧ t.numFaces e = nf ∧ t.numNu e = nn ∧ t.numVertices e = nv)
    ∧ SameBelow (n*nf) t.faceIds s.faceIds ∧ SameBelow (n*nf) t.isFaceUp s.isFaceUp
    ∧ SameBelow (n*nf) t.faceUnknown s.faceUnknown ∧ SameBelow (n*nf) t.faceFlux s.faceFlux
    ∧ SameBelow (n*nf) t.faceArea s.faceArea ∧ SameBelow (n*nf) t.vertexIds s.vertexIds
    ∧ SameBelow (n*nn) t.nuVector s.nuVector ∧ SameBelow (n*nn) t.nuStar s.nuStar
    ∧ SameBelow (n*nn) t.continuity s.continuity ∧ SameBelow (n*nn) t.faceCentroid s.faceCentroid
    ∧ SameBelow (n*nv) t.verticesCoordinates s.verticesCoordinates := by
  intro t
  have hof : ∀ e ≤ n, s.off.face e = ((e*nf : Nat) : Int) := fun e he => by
    rw [hoff]; exact allocOffsets_apply n nf e he
  have hou : ∀ e ≤ n, s.off.nuVector e = ((e*nn : Nat) : Int) := fun e he => by
    rw [hoff]; exact allocOffsets_apply n nn e he
  have hov : ∀ e ≤ n, s.off.vertex e = ((e*nv : Nat) : Int) := fun e he => by
    rw [hoff]; exact allocOffsets_apply n nv e he
  obtain ⟨an, ao, ai⟩ := squeeze_full (-1) n nf false ⟨s.numFaces, s.off.face, s.faceIds⟩ hn hof hf
  obtain ⟨bn, bo, bi⟩ := squeeze_full (-1) n nf false ⟨_, _, s.isFaceUp⟩ hn ao
    (fun e he => by rw [an]; exact hf e he)
  obtain ⟨cn, co, ci⟩ := squeeze_full (-1) n nf false ⟨_, _, s.faceUnknown⟩ hn bo
    (fun e he => by rw [bn, an]; exact hf e he)
  obtain ⟨dn, d0, di⟩ := squeeze_full (-1) n nf false ⟨_, _, s.faceFlux⟩ hn co
    (fun e he => by rw [cn, bn, an]; exact hf e he)
  obtain ⟨en, eo, ei⟩ := squeeze_full blankR n nf false ⟨_, _, s.faceArea⟩ hn d0
    (fun e he => by rw [dn, cn, bn, an]; exact hf e he)
  obtain ⟨fn, fo, fi⟩ := squeeze_full (-1) n nf true ⟨_, _, s.vertexIds⟩ hn eo
    (fun e he => by rw [en, dn, cn, bn, an]; exact hf e he)
  obtain ⟨gn, go, gi⟩ := squeeze_full blankV n nn false ⟨s.numNu, s.off.nuVector, s.nuVector⟩ hn hou hu
  obtain ⟨hn', ho, hi⟩ := squeeze_full blankV n nn false ⟨_, _, s.nuStar⟩ hn go
    (fun e he => by rw [gn]; exact hu e he)
  obtain ⟨in', io, ii⟩ := squeeze_full blankV n nn false ⟨_, _, s.continuity⟩ hn ho
    (fun e he => by rw [hn', gn]; exact hu e he)
  obtain ⟨jn, jo, ji⟩ := squeeze_full blankV n nn true ⟨_, _, s.faceCentroid⟩ hn io
    (fun e he => by rw [in', hn', gn]; exact hu e he)
  obtain ⟨kn, ko, ki⟩ := squeeze_full blankV n nv true
    ⟨s.numVertices, s.off.vertex, s.verticesCoordinates⟩ hn hov hv
  have hacc : ∀ (off : Nat → Int) (size : Nat), (∀ e ≤ n, off e = ((e*size : Nat) : Int)) → ∀ e < n,
      access off e = ⟨((e*size : Nat) : Int), size⟩ := by
    intro off size h e he
    simp only [access]
    rw [h e (by omega), h (e + 1) (by omega)]
    congr 1
    push_cast
    ring
  refine ⟨fun e he => ⟨hacc _ _ fo e he, hacc _ _ jo e he, hacc _ _ ko e he, ?_, ?_, ?_⟩,
    ai, bi, ci, di, ei, fi, gi, hi, ii, ji, ki⟩
  · exact (congrFun fn e).trans ((congrFun en e).trans ((congrFun dn e).trans ((congrFun cn e).trans
      ((congrFun bn e).trans ((congrFun an e).trans (hf e he))))))
  · exact (congrFun jn e).trans ((congrFun in' e).trans ((congrFun hn' e).trans ((congrFun gn e).trans
      (hu e he))))
  · exact (congrFun kn e).trans (hv e he)

end Subcells

/-- **C61 non-vacuity.**  Two subcells of three faces, three vectors and eight vertices. -/
example : (convertSubcells (-1) (-1) 2 3 3 8 (⟨fun _ => 3, fun _ => 3, fun _ => 8, allocSubcells 2,
    fun i => 10 + i, fun i => 20 + i, fun i => 30 + i, fun i => 40 + i, fun i => 50 + i, fun i => 60 + i,
    fun i => 70 + i, fun i => 80 + i, fun i => 90 + i, fun i => 100 + i, fun i => 110 + i⟩ :
    SubcellTables Int Int)).isFaceUp 5 = 25 :=
  (C61_subcell_tables (-1) (-1) 2 3 3 8 (by decide) _ rfl (fun _ _ => rfl) (fun _ _ => rfl)
    (fun _ _ => rfl)).2.2.1 5 (by decide)

/-! Non-vacuity: three cells with room for four vertices that use 3, 4 and 2 of them. -/

namespace TableWitness

/-- Counts 3, 4, 2. -/
def num : Nat → Nat
  | 0 => 3
  | 1 => 4
  | _ => 2

/-- Slot `i` holds the number `10 + i`. -/
def t : Table Int := ⟨num, allocOffsets 3 4, fun i => 10 + i⟩

theorem loose : Loose 3 4 t := by
  refine ⟨fun e he => allocOffsets_apply 3 4 e (by omega), ?_⟩
  intro e he
  have : e = 0 ∨ e = 1 ∨ e = 2 := by omega
  rcases this with rfl | rfl | rfl <;> decide

/-- The last entity's slice: two entries, squeezed from slots 8 and 9 to 7 and 8. -/
example : access (squeeze (-1) 3 4 true t).off 2 = ⟨7, 2⟩
    ∧ readSlice (squeeze (-1) 3 4 true t).ids (access (squeeze (-1) 3 4 true t).off 2) = [18, 19] := by
  decide

example : recorded t.ids 4 t.num 2 = [18, 19] := by decide

example : Sound 3 4 t (squeeze (-1) 3 4 true t).off (squeeze (-1) 3 4 true t).ids :=
  (C61_squeeze_sound (-1) 3 4 t (by decide) loose).1

/-- All four cell tables at once. -/
example : Loose 3 4 (⟨t, t, t, t⟩ : CellTables).faces := loose

/-- Vertex tables: edges, faces, subfaces, cells, subcells and boundary faces. -/
def v : VertexTables :=
  ⟨num, allocOffsets 3 4, fun i => 10 + i, num, allocOffsets 3 4, fun i => 20 + i, fun i => 30 + i,
    num, allocOffsets 3 4, fun i => 40 + i, allocOffsets 3 4, fun i => 50 + i, num,
    allocOffsets 3 4, fun i => 60 + i⟩

example : readSlice (convertVertices 3 4 4 4 v).subfaceIds
    (access (convertVertices 3 4 4 4 v).faceOff 1) = [34, 35, 36, 37] := by decide

example : Loose 3 4 (⟨v.numCells, v.subcellOff, v.subcellIds⟩ : Table Int) :=
  ⟨loose.layout, loose.room⟩

/-- Faces: the last of three faces with two cell slots each reports -5 cells. -/
example : (access (convertFaces 3 4 (allocFaces 3 2 4 4)).cellOff 2).count = -5 := by decide

/-- A triangle and two quadrilaterals. -/
def faces : FaceTables :=
  { allocFaces 3 2 4 4 with vertices := ⟨num, allocFaceOffsets 3 4, fun i => i⟩ }

example : readSlice (convertFaces 3 4 faces).vertices.ids
    (access (convertFaces 3 4 faces).vertices.off 2) = [8, 9] := by decide

example : subcellVerticesCoordinates (allocSubcells 16) 1 = ⟨3, 3⟩
    ∧ access (allocSubcells 16).vertex 1 = ⟨8, 8⟩ := by decide

end TableWitness

end TDy.Mesh.Props
