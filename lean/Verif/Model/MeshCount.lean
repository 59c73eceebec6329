import Verif.Model.MeshConn
import Verif.Model.Regression

/-!
# Natural numbers of cells, and the size of the transmissibility matrix

Models `SaveNaturalIDs` (src/fv/share/tdymeshplex.c 604-713), the counts of faces of
src/fv/share/tdymesh.c 757-805 and the size of the matrix of MPFA-O set by
src/fv/mpfao/tdympfao.c 2298-2312, with the columns written in lines 1456-1463 and 1636-1644.
-/

namespace TDy.MeshCount

open TDy

/-- tdymeshplex.c 626-640: the entry `i` of the natural vector on rank `r`; `cum_natural_size` is the
`MPI_Scan` of the sizes, which includes the rank itself. -/
def naturalEntry (nf : Nat) (size : Nat → Nat) (r i : Nat) : Int :=
  if i % nf = 0 then
    (i : Int) + ((Regress.offset size (r + 1)/nf : Nat) : Int) - ((size r/nf : Nat) : Int)
  else 0

/-- tdymeshplex.c 621-640: the natural vector of the ranks `0 .. R`. -/
def naturalVec (nf : Nat) (size : Nat → Nat) (R : Nat) : List Int :=
  (List.range (R + 1)).flatMap fun r => (List.range (size r)).map (naturalEntry nf size r)

/-- tdymeshplex.c 642-657: `natural_id` of the cell whose place in the natural order is `nat`.
`DMPlexNaturalToGlobal` and `DMGlobalToLocal` move the block of `nf` entries of each cell to the cell
and are not modelled further: the cell reads the first entry of its block. -/
def naturalId (nf : Nat) (size : Nat → Nat) (R nat : Nat) : Int :=
  (naturalVec nf size R).getD (nat*nf) 0

/-- `TDyMeshGetNumberOfLocalFaces`, tdymesh.c 757-769. -/
def numLocalFaces (n : Nat) (isLocal : Nat → Bool) : Nat :=
  forN n (fun f k => if isLocal f then k + 1 else k) 0

/-- `TDyMeshGetNumberOfNonLocalFaces`, tdymesh.c 775-787. -/
def numNonLocalFaces (n : Nat) (isLocal : Nat → Bool) : Nat :=
  forN n (fun f k => if !isLocal f then k + 1 else k) 0

/-- `TDyMeshGetNumberOfNonInternalFaces`, tdymesh.c 793-805. -/
def numNonInternalFaces (n : Nat) (internal : Nat → Bool) : Nat :=
  forN n (fun f k => if !internal f then k + 1 else k) 0

/-- The state of `IdentifyLocalCells`. -/
structure LocalCells where
  isLocal : Nat → Bool
  globalId : Nat → Int
  num : Nat

/-- One cell of `IdentifyLocalCells`, tdymeshplex.c 298-308; `gref c` is the start
`DMPlexGetPointGlobal` gives. -/
def localCellStep (gref : Nat → Int) (c : Nat) (s : LocalCells) : LocalCells :=
  if 0 ≤ gref c then
    { isLocal := wr s.isLocal c true, globalId := wr s.globalId c (gref c), num := s.num + 1 }
  else
    { isLocal := wr s.isLocal c false, globalId := wr s.globalId c (-(gref c) - 1), num := s.num }

/-- `IdentifyLocalCells`, tdymeshplex.c 277-313.  The arrays hold arbitrary values before. -/
def localCells (n : Nat) (gref : Nat → Int) (l : Nat → Bool) (g : Nat → Int) : LocalCells :=
  forN n (localCellStep gref) ⟨l, g, 0⟩

/-- The number of columns of the matrix, tdympfao.c 2302-2308 (and 2358-2364, 2411-2417, 2480-2486);
`nLocalCells` is `num_cells_local`. -/
def ncol (nLocalCells n : Nat) (isLocal internal : Nat → Bool) : Nat :=
  nLocalCells + numNonLocalFaces n isLocal + numNonInternalFaces n internal

/-- The column of the boundary face with these two cells, tdympfao.c 1441-1442, 1461. -/
def boundaryCol (nCells : Nat) (fc : Nat → Int) : Int :=
  (if 0 ≤ fc 0 then -(fc 1) - 1 else -(fc 0) - 1) + (nCells : Int)

end TDy.MeshCount
