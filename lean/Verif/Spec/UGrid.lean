import Verif.Model.UGrid

/-!
# Specification: importing a mesh
-/

namespace TDy.UGrid.Spec

/-- `p` lists the indices `0 .. n-1`, each once, in an order in which the array does not decrease: what
PetscSortIntWithPermutation promises for the array `a` of size `n`. -/
structure IsSortPerm (n : Nat) (a : Nat → ℤ) (p : Nat → Nat) : Prop where
  lt : ∀ i < n, p i < n
  inj : ∀ i < n, ∀ j < n, p i = p j → i = j
  surj : ∀ k < n, ∃ i < n, p i = k
  sorted : ∀ i j, i ≤ j → j < n → a (p i) ≤ a (p j)

/-- A sorting routine. -/
def Sorts (sort : Nat → (Nat → ℤ) → Nat → Nat) : Prop := ∀ n a, IsSortPerm n a (sort n a)

/-- The mesh as the file gives it: cell `c` has the vertices `vert c 0, vert c 1, ...` (natural 0-based
ids, -1 for an empty slot) and `numDual c` neighbours `dual c 0, ...`. -/
structure Mesh where
  nCells : Nat
  vert : Nat → Nat → ℤ
  numDual : Nat → Nat
  dual : Nat → Nat → Nat

/-- The neighbours of the mesh are cells of the mesh, and fit into the records. -/
structure Mesh.Ok (m : Mesh) (L : Layout) : Prop where
  fits : ∀ c < m.nCells, m.numDual c ≤ L.maxDual
  inside : ∀ c < m.nCells, ∀ d < m.numDual c, m.dual c d < m.nCells

/-- The cells a rank packs are those of the mesh from `off` on. -/
structure Packs (m : Mesh) (L : Layout) (off n : Nat) (cv : Nat → Nat → ℤ) (ia ja : Nat → Nat) : Prop where
  verts : ∀ i < n, ∀ k < L.maxVerts, cv i k = m.vert (off + i) k
  row : ∀ i < n, ia (i + 1) = ia i + m.numDual (off + i)
  duals : ∀ i < n, ∀ d < m.numDual (off + i), ja (ia i + d) = m.dual (off + i) d

/-- The vector holds at place `p` the record of cell `c`: its id, its vertices and its neighbours
(1-based, 0 for none), with the separators. -/
structure RecordAt (L : Layout) (m : Mesh) (v : Nat → ℤ) (p c : Nat) : Prop where
  head : v (p*L.stride) = -(c : ℤ) - 1
  sepV : v (p*L.stride + 1) = -777
  verts : ∀ k < L.maxVerts, v (p*L.stride + 2 + k) = m.vert c k + 1
  sepD : v (p*L.stride + 2 + L.maxVerts) = -888
  duals : ∀ d < L.maxDual, v (p*L.stride + 2 + L.maxVerts + 1 + d)
    = if d < m.numDual c then (m.dual c d : ℤ) + 1 else 0
  sepC : v (p*L.stride + 2 + L.maxVerts + 1 + L.maxDual) = -999999

/-- Where the partitioner puts the cells: `place c` is the PETSc number of natural cell `c` and `cell p`
the natural cell at PETSc number `p`. -/
structure Numbering (n : Nat) (place cell : Nat → Nat) : Prop where
  placeLt : ∀ c < n, place c < n
  cellLt : ∀ p < n, cell p < n
  cellPlace : ∀ c < n, cell (place c) = c
  placeCell : ∀ p < n, place (cell p) = p

/-- The vertices of a cell that exist, in file order, of the first `k` slots. -/
def present (vert : Nat → ℤ) (k : Nat) : List ℤ :=
  ((List.range k).map vert).filter (fun x => decide (0 ≤ x))

/-- The setting of an import: the ranks own consecutive ranges before and after the partition, each rank
has read its cells of the mesh `m` and their rows of the dual graph, the numbering is a bijection (`cell p`
is the natural cell with PETSc number `p`), and PETSc's sort and application ordering do what they promise. -/
structure Setting (w : World) (m : Mesh) (cell : Nat → Nat) : Prop where
  file0 : w.fileOff 0 = 0
  fileMono : ∀ r, w.fileOff r ≤ w.fileOff (r + 1)
  fileEnd : w.fileOff w.ranks = m.nCells
  off0 : w.off 0 = 0
  offMono : ∀ r, w.off r ≤ w.off (r + 1)
  offEnd : w.off w.ranks = m.nCells
  packs : ∀ r < w.ranks, Packs m w.L (w.fileOff r) (w.nFile r) (w.cv r) (w.ia r) (w.ja r)
  numbering : Numbering m.nCells w.numbering cell
  ao : ∀ p < m.nCells, w.ao (cell p) = p
  sort : Sorts w.sort
  mesh : m.Ok w.L

/-- Rank `r` owns the cell with PETSc number `p`. -/
def Owns (w : World) (r p : Nat) : Prop := w.off r ≤ p ∧ p < w.off (r + 1)

instance (w : World) (r p : Nat) : Decidable (Owns w r p) := by unfold Owns; infer_instance

/-- Number of vertices the file gives for cell `c`: the slots that are not 0. -/
def fileVerts (f : File) (c : Nat) : Nat :=
  ((List.range (f.blocksize - 1)).filter (fun j => decide (1 ≤ f.cells (c*f.blocksize + (1 + j))))).length

/-- `M` is the largest number of vertices of a cell. -/
def IsMaxVerts (f : File) (M : Nat) : Prop :=
  (∀ c < f.nCells, fileVerts f c ≤ M) ∧ ∃ c < f.nCells, fileVerts f c = M

end TDy.UGrid.Spec
