import Mathlib.Data.Int.Basic
import Mathlib.Algebra.Order.Group.Int
import Verif.Basic
import Verif.Loop

/-!
# Importing a PFLOTRAN mesh: renumbering of cells and vertices

Model of src/fv/share/tdyugrid.c and of the parts of src/fv/share/tdyugdm.c that build orderings.

A PETSc vector is the function from positions to values; the values are integers stored as reals
(`(PetscInt) v_ptr[...]`) and are modelled as integers.  MPI is not modelled: a function of one rank
takes the rank's offset and size as arguments, and vectors over all ranks are one function.  PETSc's
own algorithms (the sort, the application ordering, the dual graph, the partitioner) are parameters.
-/

namespace TDy.UGrid

/-! ## Reading the file -/

/-- What tdyugrid.c 60-158 reads: the `Cells` data set of `nCells` rows and `blocksize` columns (first
column: number of vertices, then 1-based vertex ids, 0 where there is none) and the size of the
`Vertices` data set of `nVerts` rows and 3 columns. -/
structure File where
  nCells : Nat
  blocksize : Nat
  cells : Nat → ℤ
  nVerts : Nat
  vertDim : Nat

/-- The fields of the unstructured grid set from the file. -/
structure Grid where
  maxVerts : Nat
  cellVerts : Nat → Nat → ℤ
  numVertsLocal : Nat
  numVertsGlobal : Nat
  numCellsLocal : Nat

/-- tdyugrid.c 117-135: the row of one cell, or an error for an unknown number of vertices. -/
def readRow (f : File) (i : Nat) (r : Res (Nat → Nat → ℤ)) : Res (Nat → Nat → ℤ) :=
  match r with
  | .ok cv =>
    if f.cells (i*f.blocksize) = 4 ∨ f.cells (i*f.blocksize) = 5 ∨ f.cells (i*f.blocksize) = 6
        ∨ f.cells (i*f.blocksize) = 8 then
      .ok (fun c j => if c = i ∧ j < f.blocksize - 1 then f.cells (i*f.blocksize + (1 + j)) - 1
        else cv c j)
    else .err cv
  | .err cv => .err cv
  | .ub => .ub

/-- tdyugrid.c 60-158 on one rank: `VecGetSize` of the vertices counts their coordinates (line 141). -/
def readFile (f : File) : Res Grid :=
  match forN f.nCells (readRow f) (.ok (fun _ _ => 0)) with
  | .ok cv =>
    if f.vertDim = 3 then .ok ⟨f.blocksize - 1, cv, f.nVerts*f.vertDim/f.vertDim,
        f.nVerts*f.vertDim, f.nCells⟩
    else .err ⟨f.blocksize - 1, cv, 0, f.nVerts*f.vertDim, f.nCells⟩
  | .err cv => .err ⟨f.blocksize - 1, cv, 0, 0, f.nCells⟩
  | .ub => .ub

/-- tdyugrid.c 171-178: the number of vertex slots of a cell that count as active (`> 0`). -/
def activeVerts (g : Grid) (i : Nat) : Nat :=
  forN g.maxVerts (fun k t => if 0 < g.cellVerts i k then t + 1 else t) 0

/-- tdyugrid.c 167-187, DetermineMaxNumVerticesActivePerCell on one rank. -/
def maxActive (g : Grid) : Nat :=
  forN g.numCellsLocal (fun i n => if n < activeVerts g i then activeVerts g i else n) 0

/-- The two arrays of the adjacency matrix while they are filled. -/
structure Adjacency where
  i : Nat → Nat
  j : Nat → ℤ
  count : Nat

/-- tdyugrid.c 214-217 for one vertex slot. -/
def adjacencyStep (g : Grid) (c k : Nat) (s : Adjacency) : Adjacency :=
  if 0 ≤ g.cellVerts c k then ⟨s.i, wr s.j s.count (g.cellVerts c k), s.count + 1⟩ else s

/-- tdyugrid.c 196-231, CreateAdjacencyMatrix: the rows handed to MatCreateMPIAdj; `ncol` is
`max_verts_per_cell` as DetermineMaxNumVerticesActivePerCell left it. -/
def adjacency (g : Grid) (ncol : Nat) : Adjacency :=
  forN g.numCellsLocal (fun c s =>
    let s' := forN ncol (adjacencyStep g c) s
    ⟨wr s'.i (c + 1) s'.count, s'.j, s'.count⟩) ⟨wr (fun _ => 0) 0 0, fun _ => 0, 0⟩

/-- tdyugrid.c 275-305, DetermineMaxNumDualCells on one rank with `n` cells. -/
def maxDual (n : Nat) (ia : Nat → Nat) : Nat :=
  forN n (fun c m => if m < ia (c + 1) - ia c then ia (c + 1) - ia c else m) 0

/-! ## Records -/

/-- The two sizes a record depends on. -/
structure Layout where
  maxVerts : Nat
  maxDual : Nat

/-- tdyugrid.c 1195, `vertex_ids_offset`. -/
def Layout.vertexOffset (_ : Layout) : Nat := 1 + 1

/-- tdyugrid.c 1196, `dual_offset`. -/
def Layout.dualOffset (L : Layout) : Nat := L.vertexOffset + L.maxVerts + 1

/-- tdyugrid.c 1197, `stride`. -/
def Layout.stride (L : Layout) : Nat := L.dualOffset + L.maxDual + 1

/-- `icell*stride + vertex_offset + ivertex` -/
def Layout.vertPos (L : Layout) (i k : Nat) : Nat := i*L.stride + L.vertexOffset + k

/-- `icell*stride + idual + dual_offset` -/
def Layout.dualPos (L : Layout) (i d : Nat) : Nat := i*L.stride + d + L.dualOffset

/-- An array that is filled front to back, `v[count++] = x`. -/
structure Cursor where
  v : Nat → ℤ
  count : Nat

/-- `v[count++] = x` -/
def put (x : ℤ) (s : Cursor) : Cursor := ⟨wr s.v s.count x, s.count + 1⟩

/-- tdyugrid.c 386-410: the record of one cell; `ia`, `ja` are the rows of the dual graph. -/
def packCell (L : Layout) (off : Nat) (cv : Nat → Nat → ℤ) (ia ja : Nat → Nat) (i : Nat) (s : Cursor) :
    Cursor :=
  put (-999999)
    (forN L.maxDual (fun c s => put (if c < ia (i + 1) - ia i then (ja (ia i + c) : ℤ) + 1 else 0) s)
      (put (-888)
        (forN L.maxVerts (fun k s => put (cv i k + 1) s)
          (put (-777) (put (-(off : ℤ) - i - 1) s)))))

/-- tdyugrid.c 367-416, PackNatOrderVector on a rank with `n` cells from `off` on. -/
def pack (L : Layout) (off n : Nat) (cv : Nat → Nat → ℤ) (ia ja : Nat → Nat) (v0 : Nat → ℤ) : Cursor :=
  forN n (packCell L off cv ia ja) ⟨v0, 0⟩

/-- tdyugrid.c 428-448, PrePartNatOrder_To_PostPartNatOrder: record `c` goes to place
`numbering c`. -/
def postPart (L : Layout) (n : Nat) (numbering : Nat → Nat) (pre junk : Nat → ℤ) : Nat → ℤ :=
  forN n (fun c v => forN L.stride (fun k v => wr v (numbering c*L.stride + k) (pre (c*L.stride + k)))
    v) junk

/-- tdyugrid.c 456-471, SaveNaturalCellIDs. -/
def naturalIds (L : Layout) (n : Nat) (v : Nat → ℤ) : Nat → ℤ :=
  forN n (fun i a => wr a i (-(v (i*L.stride)) - 1)) (fun _ => 0)

/-! ## From natural to PETSc numbers -/

/-- tdyugrid.c 519-528: the size of `IDs`. -/
def countIds (L : Layout) (n : Nat) (v : Nat → ℤ) : Nat :=
  forN n (fun i k => forN L.maxDual (fun d k => if 0 < v (L.dualPos i d) then k + 1 else k) (k + 1)) 0

/-- tdyugrid.c 530-541: the cell and its neighbours, cell by cell, 0-based natural numbers. -/
def collectIds (L : Layout) (n : Nat) (v natural : Nat → ℤ) : Cursor :=
  forN n (fun i s => forN L.maxDual (fun d s =>
    if 0 < v (L.dualPos i d) then put (v (L.dualPos i d) - 1) s else s) (put (natural i) s))
    ⟨fun _ => 0, 0⟩

/-- What the write-back of tdyugrid.c 546-560 changes. -/
structure GlobalIds where
  v : Nat → ℤ
  petsc : Nat → ℤ
  k : Nat

/-- tdyugrid.c 552-553 -/
def writeCell (L : Layout) (ids : Nat → ℤ) (i : Nat) (s : GlobalIds) : GlobalIds :=
  ⟨wr s.v (i*L.stride) (ids s.k + 1), wr s.petsc i (ids s.k), s.k + 1⟩

/-- tdyugrid.c 555-559 -/
def writeDual (L : Layout) (ids : Nat → ℤ) (i d : Nat) (s : GlobalIds) : GlobalIds :=
  if 0 < s.v (L.dualPos i d) then
    ⟨wr s.v (L.dualPos i d) (ids s.k + 1), s.petsc, s.k + 1⟩
  else s

/-- tdyugrid.c 509-568, CellAndDualIDs_FromNatOrder_To_GlobalOrder; `ao` is AOApplicationToPetsc. -/
def toGlobal (L : Layout) (n : Nat) (ao : ℤ → ℤ) (natural v : Nat → ℤ) : GlobalIds :=
  forN n (fun i s => forN L.maxDual
      (writeDual L (fun k => ao ((collectIds L n v natural).v k)) i)
      (writeCell L (fun k => ao ((collectIds L n v natural).v k)) i s))
    ⟨v, fun _ => 0, 0⟩

/-! ## From PETSc to local numbers -/

/-- tdyugrid.c 586, 606: the neighbour (1-based PETSc number) is on another rank. -/
def isGhost (off n : Nat) (d : ℤ) : Prop := d ≤ (off : ℤ) ∨ (off : ℤ) + n < d

instance (off n : Nat) (d : ℤ) : Decidable (isGhost off n d) := by unfold isGhost; infer_instance

/-- tdyugrid.c 580-592: the size of the ghost arrays. -/
def countGhosts (L : Layout) (off n : Nat) (v : Nat → ℤ) : Nat :=
  forN n (fun i k => forN L.maxDual (fun d k =>
    if 0 < v (L.dualPos i d) then (if isGhost off n (v (L.dualPos i d)) then k + 1 else k) else k) k) 0

/-- The vector and the list of ghosts (`IntArray1`, `NumCellsGhost`). -/
structure Ghosts where
  v : Nat → ℤ
  ids : Nat → ℤ
  num : Nat

/-- tdyugrid.c 603-615 for one neighbour. -/
def markStep (L : Layout) (off n i d : Nat) (s : Ghosts) : Ghosts :=
  if 0 < s.v (L.dualPos i d) then
    if isGhost off n (s.v (L.dualPos i d)) then
      ⟨wr s.v (L.dualPos i d) (-((s.num : ℤ) + 1)), wr s.ids s.num (s.v (L.dualPos i d)), s.num + 1⟩
    else ⟨wr s.v (L.dualPos i d) (s.v (L.dualPos i d) - off), s.ids, s.num⟩
  else s

/-- tdyugrid.c 600-616 -/
def markGhosts (L : Layout) (off n : Nat) (v : Nat → ℤ) : Ghosts :=
  forN n (fun i s => forN L.maxDual (markStep L off n i) s) ⟨v, fun _ => 0, 0⟩

/-- `IntArray3`, `IntArray4`, `IntArray5` and `tmp_int`. -/
structure Dedup where
  a3 : Nat → ℤ
  a4 : Nat → Nat
  a5 : Nat → Nat
  tmp : Nat

/-- tdyugrid.c 664-674: one step through the sorted ids. -/
def dedupStep (a1 : Nat → ℤ) (a2 : Nat → Nat) (g : Nat) (s : Dedup) : Dedup :=
  if s.a3 s.tmp < a1 (a2 g) then
    ⟨wr s.a3 (s.tmp + 1) (a1 (a2 g)), wr s.a4 g (s.tmp + 1), wr s.a5 (a2 g) g, s.tmp + 1⟩
  else ⟨s.a3, wr s.a4 g s.tmp, wr s.a5 (a2 g) g, s.tmp⟩

/-- tdyugrid.c 657-675 (the arrays start with -1; 0 for the index arrays here, every used entry is
written before it is read). -/
def dedup (n : Nat) (a1 : Nat → ℤ) (a2 : Nat → Nat) : Dedup :=
  forN n (dedupStep a1 a2) ⟨wr (fun _ => -1) 0 (a1 (a2 0)), fun _ => 0, fun _ => 0, 0⟩

/-- The result: the vector with local numbers, and the ghost cells. -/
structure LocalIds where
  v : Nat → ℤ
  numGhost : Nat
  ghostIds : Nat → ℤ

/-- tdyugrid.c 683-692 for one neighbour. -/
def resolveStep (L : Layout) (n : Nat) (t : Dedup) (i d : Nat) (v : Nat → ℤ) : Nat → ℤ :=
  if v (L.dualPos i d) < 0 then
    wr v (L.dualPos i d) ((t.a4 (t.a5 (-(v (L.dualPos i d)) - 1).toNat) : ℤ) + n + 1)
  else v

/-- The dedup of the ghosts: ids made 0-based (line 645), sorted by PETSc (`sort n a` is the permutation
PetscSortIntWithPermutation computes for the array `a` of size `n`), line 654. -/
def ghostTable (sort : Nat → (Nat → ℤ) → Nat → Nat) (m : Ghosts) : Dedup :=
  dedup m.num (fun k => m.ids k - 1) (sort m.num (fun k => m.ids k - 1))

/-- tdyugrid.c 576-708, DualIDs_FromPetscOrder_To_LocalOrder. -/
def toLocal (L : Layout) (off n : Nat) (sort : Nat → (Nat → ℤ) → Nat → Nat) (v : Nat → ℤ) : LocalIds :=
  let m := markGhosts L off n v
  if 0 < m.num then
    let t := ghostTable sort m
    ⟨forN n (fun i v => forN L.maxDual (resolveStep L n t i) v) m.v, t.tmp + 1,
      forN (t.tmp + 1) (fun g a => wr a g (t.a3 g)) (fun _ => 0)⟩
  else ⟨m.v, m.num, fun _ => 0⟩

/-- tdyugrid.c 740-751 for one neighbour: `v` has local, `v2` natural numbers, 1-based. -/
def naturalStep (L : Layout) (n : Nat) (v v2 : Nat → ℤ) (i d : Nat) (a : Nat → ℤ) : Nat → ℤ :=
  if 0 ≤ v (L.dualPos i d) then
    if (n : ℤ) < v (L.dualPos i d) then
      wr a (v (L.dualPos i d) - 1).toNat (v2 (L.dualPos i d) - 1)
    else a
  else a

/-- tdyugrid.c 717-759, UpdateNaturalCellIDs: natural numbers of owned and ghost cells. -/
def updateNatural (L : Layout) (n : Nat) (natural v v2 : Nat → ℤ) : Nat → ℤ :=
  forN n (fun i a => forN L.maxDual (naturalStep L n v v2 i) a)
    (forN n (fun i a => wr a i (natural i)) (fun _ => 0))

/-- A cell's neighbours: number and ids (the row of the two arrays; row `i` is written by iteration `i`
only). -/
structure Neighbours where
  num : Nat
  ids : Nat → ℤ

/-- tdyugrid.c 791-804 for one neighbour. -/
def neighbourStep (L : Layout) (n : Nat) (v : Nat → ℤ) (i d : Nat) (s : Neighbours) : Neighbours :=
  if 0 < v (L.dualPos i d) then
    ⟨s.num + 1, wr s.ids d
      (if (n : ℤ) < v (L.dualPos i d) then -(v (L.dualPos i d)) + 1 else v (L.dualPos i d) - 1)⟩
  else s

/-- tdyugrid.c 768-810, DetermineNeigbhorsCellIDsInGhostedOrder: row of cell `i`; ghost cells are
negative. -/
def neighbours (L : Layout) (n : Nat) (v : Nat → ℤ) (i : Nat) : Neighbours :=
  forN L.maxDual (neighbourStep L n v i) ⟨0, fun _ => 0⟩

/-! ## Vertices -/

/-- tdyugrid.c 883-891: the PETSc numbers of the local cells, owned first, then ghosts. -/
def localCells (n : Nat) (petsc : Nat → ℤ) (ghosts : Nat → ℤ) (numGhost : Nat) : Nat → ℤ :=
  forN (n + numGhost - n) (fun g a => wr a (n + g) (ghosts g))
    (forN n (fun i a => wr a i (petsc i)) (fun _ => 0))

/-- tdyugrid.c 868-920, ScatterVecPetscOrderToLocalOrder: the record of local cell `i` is the record
of the cell with PETSc number `idx i` in the vector over all ranks. -/
def localRecords (L : Layout) (m : Nat) (idx : Nat → ℤ) (v : Nat → ℤ) : Nat → ℤ :=
  forN m (fun i a => forN L.stride (fun k a =>
    wr a (i*L.stride + k) (v ((idx i).toNat*L.stride + k))) a) (fun _ => 0)

/-- tdyugrid.c 957-966 for one vertex slot (`IntArray1`, `numVertices`). -/
def vertexStep (L : Layout) (i k : Nat) (s : Ghosts) : Ghosts :=
  if 0 < s.v (L.vertPos i k) then
    ⟨wr s.v (L.vertPos i k) ((s.num : ℤ) + 1), wr s.ids s.num (s.v (L.vertPos i k)), s.num + 1⟩
  else s

/-- tdyugrid.c 954-966 -/
def markVertices (L : Layout) (m : Nat) (v : Nat → ℤ) : Ghosts :=
  forN m (fun i s => forN L.maxVerts (vertexStep L i) s) ⟨v, fun _ => 0, 0⟩

/-- `IntArray3`, `IntArray4` and `count` of the vertices. -/
structure VDedup where
  a3 : Nat → ℤ
  a4 : Nat → Nat
  count : Nat

/-- tdyugrid.c 987-995 -/
def vdedupStep (a1 : Nat → ℤ) (a2 : Nat → Nat) (k : Nat) (s : VDedup) : VDedup :=
  if s.a3 s.count < a1 (a2 k) then
    ⟨wr s.a3 (s.count + 1) (a1 (a2 k)), wr s.a4 (a2 k) (s.count + 1), s.count + 1⟩
  else ⟨s.a3, wr s.a4 (a2 k) s.count, s.count⟩

/-- tdyugrid.c 982-995 -/
def vdedup (n : Nat) (a1 : Nat → ℤ) (a2 : Nat → Nat) : VDedup :=
  forN n (vdedupStep a1 a2) ⟨wr (fun _ => -1) 0 (a1 (a2 0)), wr (fun _ => 0) (a2 0) 0, 0⟩

/-- The table of the vertices: ids made 0-based (line 973) and sorted (line 979). -/
def vertexTable (sort : Nat → (Nat → ℤ) → Nat → Nat) (s : Ghosts) : VDedup :=
  vdedup s.num (fun k => s.ids k - 1) (sort s.num (fun k => s.ids k - 1))

/-- The vertices of one cell (row `i` of `cell_vertices` and of `cell_num_vertices`). -/
structure CellVerts where
  num : Nat
  ids : Nat → Nat

/-- tdyugrid.c 1021-1028 for one slot. -/
def cellVertsStep (L : Layout) (t : VDedup) (v : Nat → ℤ) (i k : Nat) (s : CellVerts) : CellVerts :=
  if 0 < v (L.vertPos i k) then
    ⟨s.num + 1, wr s.ids s.num (t.a4 (v (L.vertPos i k) - 1).toNat)⟩
  else s

/-- The local vertices. -/
structure Vertices where
  num : Nat
  natural : Nat → ℤ
  cell : Nat → CellVerts

/-- tdyugrid.c 931-1040, ChangeVertexNatOrderToLocalOrder.  Without any vertex the code reads
`IntArray2[0]` of an array of size 0.  The vector itself, which the code also renumbers and then
destroys, is not part of the result. -/
def renumberVertices (L : Layout) (m : Nat) (sort : Nat → (Nat → ℤ) → Nat → Nat) (v : Nat → ℤ) :
    Res Vertices :=
  let s := markVertices L m v
  if s.num = 0 then .ub
  else
    let t := vertexTable sort s
    .ok ⟨t.count + 1, forN (t.count + 1) (fun k a => wr a k (t.a3 k)) (fun _ => 0),
      fun i => forN L.maxVerts (cellVertsStep L t s.v i) ⟨0, fun _ => 0⟩⟩

/-- tdyugrid.c 1050-1125, SaveLocalVertexCoordinates: coordinate `k` of local vertex `i` is taken from
the natural vertex. -/
def localCoords {α : Type} (num : Nat) (natural : Nat → ℤ) (coords old : Nat → Nat → α) :
    Nat → Nat → α :=
  forN num (fun i a => forN 3 (fun k a => fun i' k' =>
    if i' = i ∧ k' = k then coords (natural i).toNat k else a i' k') a) old

/-! ## The whole import, all ranks -/

/-- What PETSc and the partitioner contribute and the sizes: the ranks own `[off r, off (r+1))` after the
partition and read `[fileOff r, fileOff (r+1))` of the file. -/
structure World where
  L : Layout
  ranks : Nat
  fileOff : Nat → Nat
  off : Nat → Nat
  /-- NatToPetscIS (ISPartitioningToNumbering). -/
  numbering : Nat → Nat
  /-- AOApplicationToPetsc. -/
  ao : ℤ → ℤ
  /-- PetscSortIntWithPermutation. -/
  sort : Nat → (Nat → ℤ) → Nat → Nat
  /-- Rank `r`: vertices of its cells as read, and its rows of the dual graph. -/
  cv : Nat → Nat → Nat → ℤ
  ia : Nat → Nat → Nat
  ja : Nat → Nat → Nat

/-- Number of cells of rank `r` before and after the partition. -/
def World.nFile (w : World) (r : Nat) : Nat := w.fileOff (r + 1) - w.fileOff r

@[inherit_doc World.nFile]
def World.n (w : World) (r : Nat) : Nat := w.off (r + 1) - w.off r

/-- A vector over all ranks: rank `r` holds the entries from `start r` on, `len r` of them. -/
def distribute (ranks : Nat) (start len : Nat → Nat) (part : Nat → Nat → ℤ) : Nat → ℤ :=
  forN ranks (fun r v => forN (len r) (fun p v => wr v (start r + p) (part r p)) v) (fun _ => 0)

/-- tdyugrid.c 1205-1206: `NatOrderVec`. -/
def World.preVec (w : World) : Nat → ℤ :=
  distribute w.ranks (fun r => w.fileOff r*w.L.stride) (fun r => w.nFile r*w.L.stride)
    (fun r => (pack w.L (w.fileOff r) (w.nFile r) (w.cv r) (w.ia r) (w.ja r) (fun _ => 0)).v)

/-- tdyugrid.c 825: `PostPartNatOrderVec`; `fileOff ranks` is the number of all cells. -/
def World.postVec (w : World) : Nat → ℤ :=
  postPart w.L (w.fileOff w.ranks) w.numbering w.preVec (fun _ => 0)

/-- The part of a vector rank `r` owns (VecGetArray). -/
def World.slice (w : World) (v : Nat → ℤ) (r : Nat) : Nat → ℤ := fun p => v (w.off r*w.L.stride + p)

/-- tdyugrid.c 835 on rank `r`. -/
def World.natural0 (w : World) (r : Nat) : Nat → ℤ := naturalIds w.L (w.n r) (w.slice w.postVec r)

/-- tdyugrid.c 841 on rank `r`. -/
def World.global (w : World) (r : Nat) : GlobalIds :=
  toGlobal w.L (w.n r) w.ao (w.natural0 r) (w.slice w.postVec r)

/-- tdyugrid.c 844 on rank `r`. -/
def World.local (w : World) (r : Nat) : LocalIds :=
  toLocal w.L (w.off r) (w.n r) w.sort (w.global r).v

/-- tdyugrid.c 847 on rank `r`: `cell_ids_natural`. -/
def World.natural (w : World) (r : Nat) : Nat → ℤ :=
  updateNatural w.L (w.n r) (w.natural0 r) (w.local r).v (w.slice w.postVec r)

/-- tdyugrid.c 850 on rank `r`: `cell_num_neighbors_local_ghosted[i]`,
`cell_neighbors_local_ghosted[i]`. -/
def World.neighbours (w : World) (r i : Nat) : Neighbours :=
  TDy.UGrid.neighbours w.L (w.n r) (w.local r).v i

/-- `num_cells_global` of rank `r`: owned and ghost cells. -/
def World.ghosted (w : World) (r : Nat) : Nat := w.n r + (w.local r).numGhost

/-- `PetscOrderVec` over all ranks. -/
def World.petscVec (w : World) : Nat → ℤ :=
  distribute w.ranks (fun r => w.off r*w.L.stride) (fun r => w.n r*w.L.stride) (fun r => (w.local r).v)

/-- tdyugrid.c 1217: `LocalOrderVec` of rank `r`. -/
def World.records (w : World) (r : Nat) : Nat → ℤ :=
  localRecords w.L (w.ghosted r)
    (localCells (w.n r) (w.global r).petsc (w.local r).ghostIds (w.local r).numGhost) w.petscVec

/-- tdyugrid.c 1220 on rank `r`: `vertex_ids_natural`, `cell_vertices`, `cell_num_vertices`. -/
def World.vertices (w : World) (r : Nat) : Res Vertices :=
  renumberVertices w.L (w.ghosted r) w.sort (w.records r)

/-! ## Matrix and orderings of the grid manager -/

/-- tdyugdm.c 451-464: numbers of nonzero blocks in the diagonal and off-diagonal part of a row. -/
def nnz (nb : Neighbours) : Nat × Nat :=
  forN nb.num (fun k s => if 0 ≤ nb.ids k then (s.1 + 1, s.2) else (s.1, s.2 + 1)) (1, 0)

/-- tdyugdm.c 229-262, CreateNaturalOrderIS on all ranks: the natural number of the cell with PETSc
number `p` (`toApp` is AOPetscToApplicationIS). -/
def naturalOrder (toApp : Nat → Nat) (p : Nat) : Nat := toApp p

/-- tdydiscretization.c 190-223 (TDYCORE_DM_TYPE): scatter from `GlobalVec` with
`IS_LocalCells_in_GlobalOrder` to `IS_LocalCells_to_NaturalCells`, blocks of `ndof`, all ranks. -/
def globalToNatural {α : Type} (n ndof : Nat) (toApp : Nat → Nat) (g nat : Nat → α) : Nat → α :=
  forN n (fun p a => forN ndof (fun k a => wr a (naturalOrder toApp p*ndof + k) (g (p*ndof + k))) a) nat

/-- tdydiscretization.c 250-283 (TDYCORE_DM_TYPE): the same scatter in reverse. -/
def naturalToGlobal {α : Type} (n ndof : Nat) (toApp : Nat → Nat) (nat g : Nat → α) : Nat → α :=
  forN n (fun p a => forN ndof (fun k a => wr a (p*ndof + k) (nat (naturalOrder toApp p*ndof + k))) a) g

/-- tdyugdm.c 181-221, CreatePetscOrderIS: the PETSc numbers of the owned and ghost cells. -/
def ghostedOrder (off n : Nat) (ghosts : Nat → ℤ) (numGhost : Nat) : Nat → ℤ :=
  forN numGhost (fun i a => wr a (i + n) (ghosts i))
    (forN n (fun i a => wr a i ((i : ℤ) + off)) (fun _ => 0))

/-- tdyugdm.c 290-300: scatter of the global vector to the owned and ghost cells of a rank. -/
def globalToLocal {α : Type} (ng ndof : Nat) (idx : Nat → ℤ) (g loc : Nat → α) : Nat → α :=
  forN ng (fun i a => forN ndof (fun k a =>
    wr a (i*ndof + k) (g ((idx i).toNat*ndof + k))) a) loc

end TDy.UGrid
