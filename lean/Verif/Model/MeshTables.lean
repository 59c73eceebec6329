import Mathlib.Algebra.Order.Group.Nat
import Mathlib.Algebra.Order.Ring.Int
import Mathlib.Tactic.Ring
import Verif.Loop

/-!
# Connectivity tables of the mesh

src/fv/share/tdymesh.c and src/fv/share/tdymeshplex.c keep every relation of the mesh (the vertices
of a cell, the cells at a vertex, ...) in one array of ids and one array of offsets.  The tables are
allocated with a fixed number of slots per entity and later squeezed ("compressed format"); the
accessors read two successive offsets.
-/

namespace TDy.Mesh

/-- `PetscReal`, `TDyVector` and `TDyCoordinate` tables are squeezed by copies of the same code
(tdymeshplex.c:773-914); the element type is a parameter here. -/
structure Table (α : Type) where
  /-- `subelement_num[e]`: entries in use for entity `e`. -/
  num : Nat → Nat
  /-- `subelement_offset[e]`. -/
  off : Nat → Int
  /-- `subelement_id[i]`: the memory behind the pointer. -/
  ids : Nat → α

/-! ## Allocation -/

/-- The offsets written by AllocateCells (tdymesh.c:69-74), AllocateSubcells (tdymesh.c:136-140),
AllocateVertices (tdymesh.c:190-197) and AllocateEdges (tdymesh.c:246-248): the loop runs to
`num_elements` inclusive.  The array was initialised with -1 (TDyAllocate_IntegerArray_1D,
src/tdymemory.c). -/
def allocOffsets (n size : Nat) : Nat → Int :=
  forN (n + 1) (fun e a => wr a e ((e * size : Nat) : Int)) (fun _ => -1)

/-- The offsets written by AllocateFaces (tdymesh.c:311-313): the assignments sit in the loop over
`iface < num_faces`, so entry `num_faces` keeps the -1 of the allocation. -/
def allocFaceOffsets (n size : Nat) : Nat → Int :=
  forN n (fun e a => wr a e ((e * size : Nat) : Int)) (fun _ => -1)

/-! ## Conversion to compressed format -/

/-- Inner loop of tdymeshplex.c:738-743: entity `e`'s entries move from `old` to `new`, one by one
and in place. -/
def moveEntries {α : Type} (cnt new old : Nat) (ids : Nat → α) : Nat → α :=
  forN cnt (fun k ids => wr ids (new + k) (ids (old + k))) ids

/-- The loop variables of ConvertMeshElementToCompressedFormatIntegerValues
(tdymeshplex.c:724-760). -/
structure SqueezeState (α : Type) where
  tab : Table α
  newOffset : Nat
  count : Nat

/-- One turn of the loop over elements, `ielem = j + 1` (tdymeshplex.c:733-748).
Simplification: a negative old offset (an out-of-bounds access in C) reads entry 0 here; the
theorems only use offsets written by the allocation routines, which are not negative. -/
def squeezeStep {α : Type} (update : Bool) (j : Nat) (s : SqueezeState α) : SqueezeState α :=
  let new := s.newOffset + s.tab.num j
  let old := (s.tab.off (j + 1)).toNat
  let cnt := s.tab.num (j + 1)
  { tab :=
      { num := s.tab.num
        off := if update then wr s.tab.off (j + 1) (new : Int) else s.tab.off
        ids := moveEntries cnt new old s.tab.ids }
    newOffset := new
    count := s.count + cnt }

/-- ConvertMeshElementToCompressedFormatIntegerValues (tdymeshplex.c:724-760) and its copies for
TDyVector (773-815), TDyCoordinate (830-871) and PetscReal (884-915) values.  `blank` is the -1 the
unused tail is filled with.  `num_element` is positive (with no element the C code reads
`subelement_num[0]` and `subelement_num[-1]` out of bounds). -/
def squeeze {α : Type} (blank : α) (n size : Nat) (update : Bool) (t : Table α) : Table α :=
  let s := forN (n - 1) (squeezeStep update) ⟨t, 0, t.num 0⟩
  let off :=
    if update then wr s.tab.off n ((s.newOffset + s.tab.num (n - 1) : Nat) : Int) else s.tab.off
  let ids := forN (size * n - s.count) (fun k ids => wr ids (s.count + k) blank) s.tab.ids
  { num := s.tab.num, off := off, ids := ids }

/-! ## Accessors -/

/-- What an accessor hands to its caller: where the slice starts and how many entries it has. -/
structure Slice where
  start : Int
  count : Int
  deriving DecidableEq, Repr

/-- TDyMeshGetCellEdges (tdymesh.c:935-944), TDyMeshGetCellVertices (954-963), TDyMeshGetCellFaces
(988-997), TDyMeshGetCellNeighbors (1022-1031), TDyMeshGetVertexInternalCells (1083-1092),
TDyMeshGetVertexFaces (1134-1143), TDyMeshGetVertexSubfaces (1169-1178),
TDyMeshGetVertexBoundaryFaces (1189-1198), TDyMeshGetFaceCells (1225-1234), TDyMeshGetFaceVertices
(1262-1271), TDyMeshGetSubcellFaces (1336-1344): all read `offset[e]` and `offset[e+1]`.  The
`...Num...` variants return the same count. -/
def access (off : Nat → Int) (e : Nat) : Slice :=
  { start := off e, count := off (e + 1) - off e }

/-- The `count` entries a caller reads from the pointer it was given (none when the count is
negative). -/
def readSlice {α : Type} (ids : Nat → α) (s : Slice) : List α :=
  (List.range s.count.toNat).map (fun k => ids (s.start.toNat + k))

/-! ## Cells -/

/-- The connectivity tables of TDyCell (include/private/tdymeshimpl.h) built by AllocateCells. -/
structure CellTables where
  vertices : Table Int
  edges : Table Int
  neighbors : Table Int
  faces : Table Int

/-- ConvertCellsToCompressedFormat (tdymeshplex.c:926-961). -/
def convertCells (n nv ne nn nf : Nat) (c : CellTables) : CellTables :=
  { vertices := squeeze (-1) n nv true c.vertices
    edges := squeeze (-1) n ne true c.edges
    neighbors := squeeze (-1) n nn true c.neighbors
    faces := squeeze (-1) n nf true c.faces }

/-! ## Vertices -/

/-- The connectivity tables of TDyVertex built by AllocateVertices (tdymesh.c:151-207).  `face_ids`
and `subface_ids` share `num_faces` and `face_offset`; `internal_cell_ids` and `subcell_ids` share
`num_internal_cells`. -/
structure VertexTables where
  numEdges : Nat → Nat
  edgeOff : Nat → Int
  edgeIds : Nat → Int
  numFaces : Nat → Nat
  faceOff : Nat → Int
  faceIds : Nat → Int
  subfaceIds : Nat → Int
  numCells : Nat → Nat
  cellOff : Nat → Int
  cellIds : Nat → Int
  subcellOff : Nat → Int
  subcellIds : Nat → Int
  numBoundary : Nat → Nat
  boundaryOff : Nat → Int
  boundaryIds : Nat → Int

/-- ConvertVerticesToCompressedFormat (tdymeshplex.c:1042-1096): the face ids are squeezed without
touching the offsets, then the subface ids with the update. -/
def convertVertices (n cellsPer facesPer edgesPer : Nat) (v : VertexTables) : VertexTables :=
  let e := squeeze (-1) n edgesPer true ⟨v.numEdges, v.edgeOff, v.edgeIds⟩
  let f := squeeze (-1) n facesPer false ⟨v.numFaces, v.faceOff, v.faceIds⟩
  let sf := squeeze (-1) n facesPer true ⟨f.num, f.off, v.subfaceIds⟩
  let c := squeeze (-1) n cellsPer true ⟨v.numCells, v.cellOff, v.cellIds⟩
  let sc := squeeze (-1) n facesPer true ⟨c.num, v.subcellOff, v.subcellIds⟩
  let b := squeeze (-1) n facesPer true ⟨v.numBoundary, v.boundaryOff, v.boundaryIds⟩
  { numEdges := e.num, edgeOff := e.off, edgeIds := e.ids
    numFaces := sf.num, faceOff := sf.off, faceIds := f.ids, subfaceIds := sf.ids
    numCells := sc.num, cellOff := c.off, cellIds := c.ids
    subcellOff := sc.off, subcellIds := sc.ids
    numBoundary := b.num, boundaryOff := b.off, boundaryIds := b.ids }

/-! ## Faces -/

/-- The connectivity tables of TDyFace built by AllocateFaces (tdymesh.c:259-317); `cell_ids` and
`edge_ids` are never squeezed. -/
structure FaceTables where
  vertices : Table Int
  cellOff : Nat → Int
  edgeOff : Nat → Int

/-- AllocateFaces (tdymesh.c:259-317), the part that concerns the tables. -/
def allocFaces (n cellsPer edgesPer vertsPer : Nat) : FaceTables :=
  { vertices := ⟨fun _ => 0, allocFaceOffsets n vertsPer, fun _ => -1⟩
    cellOff := allocFaceOffsets n cellsPer
    edgeOff := allocFaceOffsets n edgesPer }

/-- ConvertFacesToCompressedFormat (tdymeshplex.c:1103-1122): only the vertex lists. -/
def convertFaces (n vertsPer : Nat) (f : FaceTables) : FaceTables :=
  { f with vertices := squeeze (-1) n vertsPer true f.vertices }

/-! ## Subcells -/

/-- The offsets of TDySubcell written by AllocateSubcells (tdymesh.c:136-140) for `n` subcells. -/
structure SubcellOffsets where
  nuVector : Nat → Int
  vertex : Nat → Int
  face : Nat → Int

/-- tdymesh.c:136-140 with the sizes of a hexahedral subcell: three nu vectors, eight vertices and
three faces. -/
def allocSubcells (n : Nat) : SubcellOffsets :=
  { nuVector := allocOffsets n 3, vertex := allocOffsets n 8, face := allocOffsets n 3 }

/-- The tables of TDySubcell (include/private/tdymeshimpl.h): `R` stands for PetscReal, `V` for TDyVector
and TDyCoordinate.  Six arrays share `face_offset`, four share `nu_vector_offset`. -/
structure SubcellTables (R V : Type) where
  numFaces : Nat → Nat
  numNu : Nat → Nat
  numVertices : Nat → Nat
  off : SubcellOffsets
  faceIds : Nat → Int
  isFaceUp : Nat → Int
  faceUnknown : Nat → Int
  faceFlux : Nat → Int
  faceArea : Nat → R
  vertexIds : Nat → Int
  nuVector : Nat → V
  nuStar : Nat → V
  continuity : Nat → V
  faceCentroid : Nat → V
  verticesCoordinates : Nat → V

/-- ConvertSubcellsToCompressedFormat (src/fv/share/tdymeshplex.c:965-1036) for `n` subcells with `nf`
faces, `nn` nu vectors and `nv` vertices each. -/
def convertSubcells {R V : Type} (blankR : R) (blankV : V) (n nf nn nv : Nat) (s : SubcellTables R V) :
    SubcellTables R V :=
  let a := squeeze (-1) n nf false ⟨s.numFaces, s.off.face, s.faceIds⟩
  let b := squeeze (-1) n nf false ⟨a.num, a.off, s.isFaceUp⟩
  let c := squeeze (-1) n nf false ⟨b.num, b.off, s.faceUnknown⟩
  let d := squeeze (-1) n nf false ⟨c.num, c.off, s.faceFlux⟩
  let e := squeeze blankR n nf false ⟨d.num, d.off, s.faceArea⟩
  let f := squeeze (-1) n nf true ⟨e.num, e.off, s.vertexIds⟩
  let g := squeeze blankV n nn false ⟨s.numNu, s.off.nuVector, s.nuVector⟩
  let h := squeeze blankV n nn false ⟨g.num, g.off, s.nuStar⟩
  let i := squeeze blankV n nn false ⟨h.num, h.off, s.continuity⟩
  let j := squeeze blankV n nn true ⟨i.num, i.off, s.faceCentroid⟩
  let k := squeeze blankV n nv true ⟨s.numVertices, s.off.vertex, s.verticesCoordinates⟩
  { numFaces := f.num, numNu := j.num, numVertices := k.num
    off := ⟨j.off, k.off, f.off⟩
    faceIds := a.ids, isFaceUp := b.ids, faceUnknown := c.ids, faceFlux := d.ids, faceArea := e.ids
    vertexIds := f.ids, nuVector := g.ids, nuStar := h.ids, continuity := i.ids, faceCentroid := j.ids
    verticesCoordinates := k.ids }

/-- TDyMeshGetSubcellNuVectors (tdymesh.c:1471-1479): start from `face_offset`, end from
`nu_vector_offset`. -/
def subcellNuVectors (o : SubcellOffsets) (s : Nat) : Slice :=
  { start := o.face s, count := o.nuVector (s + 1) - o.face s }

/-- TDyMeshGetSubcellVerticesCoordinates (tdymesh.c:1551-1560): `face_offset` and
`nu_vector_offset` are used for the array `vertices_coordinates`, which is laid out by
`vertex_offset`. -/
def subcellVerticesCoordinates (o : SubcellOffsets) (s : Nat) : Slice :=
  { start := o.face s, count := o.nuVector (s + 1) - o.face s }

end TDy.Mesh
