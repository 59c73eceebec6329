import Verif.Model.UGrid

/-!
# Importing a mesh: the partition

The partitioner gives every cell of the file a rank (MatPartitioningApply; any answer with existing ranks
is allowed here). What the code makes of it: the number of cells of every rank, the offsets of the ranks, the
new numbers of the cells and the application ordering. The PETSc and MPI functions called
(ISPartitioningCount, ISPartitioningToNumbering, MPI_Exscan, AOCreateBasic) are modelled by what their
manual pages say of the arrays over all ranks.
-/

namespace TDy.UGrid

/-- tdyugrid.c 258-260: ISPartitioningCount; entry `r` is the number of the `n` cells with rank `r`. Each
rank keeps its own entry as `NewNumCellsLocal`. -/
def partitioningCount (n : Nat) (rankOf : Nat → Nat) (r : Nat) : Nat :=
  forN n (fun c k => if rankOf c = r then k + 1 else k) 0

/-- MPI_Exscan with MPI_SUM: rank `r` receives the sum over the ranks before it, and the buffer of rank 0
is left as it was. -/
def exscan (x : Nat → Nat) (buffer : Nat → Nat) (r : Nat) : Nat :=
  if r = 0 then buffer 0 else forN r (fun q s => s + x q) 0

/-- What ISPartitioningToNumbering keeps: the next free number of every rank and the numbers given. -/
structure NumberingState where
  next : Nat → Nat
  number : Nat → Nat

/-- tdyugrid.c 324: ISPartitioningToNumbering; the cells of rank 0 come first, then those of rank 1, and so
on, each group in the order of the file. -/
def partitioningToNumbering (n : Nat) (rankOf : Nat → Nat) : Nat → Nat :=
  (forN n (fun c s => NumberingState.mk (wr s.next (rankOf c) (s.next (rankOf c) + 1))
      (wr s.number c (s.next (rankOf c))))
    (NumberingState.mk (fun r => forN r (fun q k => k + partitioningCount n rankOf q) 0) (fun _ => 0))).number

/-- tdyugrid.c 828-829: `NewGlobalOffset` of rank `r`, 0 before the call. -/
def newGlobalOffset (n : Nat) (rankOf : Nat → Nat) (r : Nat) : Nat :=
  exscan (partitioningCount n rankOf) (fun _ => 0) r

/-- tdyugrid.c 383-385: `global_offset` of rank `r` after PackNatOrderVector; `nFile` is the number of cells
each rank has read. -/
def packedOffset (nFile : Nat → Nat) (r : Nat) : Nat := exscan nFile (fun _ => 0) r

/-- tdyugrid.c 1190: `global_offset` of rank `r`, updated in place after PackNatOrderVector has set it. -/
def globalOffset (nFile : Nat → Nat) (n : Nat) (rankOf : Nat → Nat) (r : Nat) : Nat :=
  exscan (partitioningCount n rankOf) (packedOffset nFile) r

/-- tdyugrid.c 483-488: CreateApplicationOrder and AOApplicationToPetsc; rank `r` gives the pairs
(`natural r i`, `i + offset r`) of its `count r` cells, and the number sought is found among the pairs of all
ranks. A number that is not there gives -1. -/
def applicationOrder (ranks : Nat) (count offset : Nat → Nat) (natural : Nat → Nat → ℤ) (x : ℤ) : ℤ :=
  forN ranks (fun r s => forN (count r)
    (fun i s => if natural r i = x then ((i + offset r : Nat) : ℤ) else s) s) (-1)

/-- What the ranks have read of the file: their ranges of cells, the vertices of these and their rows of the
dual graph; `sort` is PetscSortIntWithPermutation. -/
structure Reading where
  L : Layout
  ranks : Nat
  fileOff : Nat → Nat
  sort : Nat → (Nat → ℤ) → Nat → Nat
  cv : Nat → Nat → Nat → ℤ
  ia : Nat → Nat → Nat
  ja : Nat → Nat → Nat

/-- tdyugrid.c 1174-1193, 822-838: the import up to CreateApplicationOrder; the offsets of the ranks, and
the numbers of the cells for the ranks the partitioner gave them. -/
def Reading.numbered (f : Reading) (rankOf : Nat → Nat) : World where
  L := f.L
  ranks := f.ranks
  fileOff := f.fileOff
  off := newGlobalOffset (f.fileOff f.ranks) rankOf
  numbering := partitioningToNumbering (f.fileOff f.ranks) rankOf
  ao := fun _ => -1
  sort := f.sort
  cv := f.cv
  ia := f.ia
  ja := f.ja

/-- tdyugrid.c 838: the same with the application ordering, which is made of the natural numbers every rank
has found in its part of the vector. -/
def Reading.import (f : Reading) (rankOf : Nat → Nat) : World :=
  { f.numbered rankOf with
    ao := applicationOrder f.ranks (partitioningCount (f.fileOff f.ranks) rankOf)
      (newGlobalOffset (f.fileOff f.ranks) rankOf) (f.numbered rankOf).natural0 }

end TDy.UGrid
