import Verif.Basic
import Verif.Loop
import Verif.Model.Geometry
import Verif.Model.MpfaoTrans

/-!
# The order of cells and faces around a vertex

Models `src/fv/share/tdymeshplex.c` lines 1530-1619 (which connection a subcell face belongs to) and
1716-2827, 3036-3056 (cells above and below a vertex, their order around it, and the connections
between cells and boundary faces).

Rows of C arrays whose length is kept beside them are lists; `cell_traversal`, which may have gaps,
is a function of the index.  Floating point numbers are real numbers.  Accessors of the mesh
(`TDyMeshGetCellFaces`, ...) are functions of the mesh; that they deliver the entries of the
compressed arrays is not repeated here.
-/

namespace TDy.Traverse

open Classical

/-- How a function without lasting effects ends: with a result, with a non-zero error code that its
caller passes on, or in undefined behaviour. -/
inductive Out (α : Type) where
  | ok (a : α)
  | err
  | ub
  deriving DecidableEq, Repr

/-- `ierr = f(...); CHKERRQ(ierr);` -/
def Out.bind {α β : Type} (r : Out α) (f : α → Out β) : Out β :=
  match r with
  | .ok a => f a
  | .err => .err
  | .ub => .ub

/-- What the traversal code reads from the mesh: per cell its faces, vertices and centroid, per face
its two `cell_ids` (negative outside the domain), vertices, `is_internal` and centroid, per vertex
its cells, boundary faces and faces, and for the `f`-th face of the subcell that the `i`-th cell of
vertex `v` has there its face (`subcell_face_ids`). -/
structure TMesh where
  numVertices : Nat
  maxVertexFaces : Nat
  isLocal : Nat → Bool
  coord : Nat → Geo.P3
  cellFaces : Nat → List Nat
  cellVerts : Nat → List Nat
  cellCen : Nat → Geo.P3
  faceCells : Nat → ℤ × ℤ
  faceVerts : Nat → List Nat
  faceInternal : Nat → Bool
  faceCen : Nat → Geo.P3
  vCells : Nat → List Nat
  vBnd : Nat → List Nat
  vFaces : Nat → List Nat
  subFace : Nat → Nat → Nat → Nat

/-- `PETSC_ERR_USER`: what a function declared to return an index or a flag returns when it runs
into `SETERRQ` (tdymeshplex.c 1760-1764, 1797-1801, 2123-2125; tdyutils.c 475-479). -/
def errUser : Nat := 83

/-- `VerticesHaveSameXYCoords`, tdymeshplex.c 1716-1730. -/
noncomputable def sameXY (m : TMesh) (v w : Nat) : Bool :=
  decide (0.0 + ((m.coord v).x - (m.coord w).x) * ((m.coord v).x - (m.coord w).x)
    + ((m.coord v).y - (m.coord w).y) * ((m.coord v).y - (m.coord w).y) < 1e-14)

/-- The search of tdymeshplex.c 1747-1759, 1785-1795 and 1857-1865: the first other vertex of the
cell with the same horizontal position as `v`. -/
noncomputable def verticalVertex (m : TMesh) (c v : Nat) : Option Nat :=
  (m.cellVerts c).find? fun w => w != v && sameXY m v w

/-- `VertexIdWithSameXYInACell`, tdymeshplex.c 1734-1767. -/
noncomputable def vertexSameXY (m : TMesh) (c v : Nat) : Nat :=
  (verticalVertex m c v).getD errUser

/-- `IsCellAboveTheVertex`, tdymeshplex.c 1771-1805: a non-zero error code counts as true. -/
noncomputable def isAbove (m : TMesh) (c v : Nat) : Bool :=
  match verticalVertex m c v with
  | some w => decide ((m.coord w).z > (m.coord v).z)
  | none => errUser != 0

/-- The faces of a cell that contain both `v` and `w`, tdymeshplex.c 1876-1894: for each whether it
is on the boundary. -/
def edgeFlags (m : TMesh) (c v w : Nat) : List Bool :=
  ((m.cellFaces c).filter fun f => (m.faceVerts f).count v + (m.faceVerts f).count w == 2).map
    fun f => !m.faceInternal f

/-- Whether a cell has a boundary face along the vertical edge at `v`, tdymeshplex.c 1849-1898:
an error if there is no such edge.  With other than two faces along the edge the code reads
uninitialised entries of, or writes behind, `IsBoundaryfaceIDsAbvBlw[ii][2]`. -/
noncomputable def hasBndEdge (m : TMesh) (v c : Nat) : Out Bool :=
  match verticalVertex m c v with
  | none => .err
  | some w =>
    match edgeFlags m c v w with
    | [a, b] => .ok (a || b)
    | _ => .ub

/-- Cells with and without boundary face along the edge, in their order (tdymeshplex.c 1849-1898,
1906-1926). -/
noncomputable def splitBnd (m : TMesh) (v : Nat) : List Nat → Out (List Nat × List Nat)
  | [] => .ok ([], [])
  | c :: cs =>
    (hasBndEdge m v c).bind fun b =>
      (splitBnd m v cs).bind fun p => .ok (if b then (c :: p.1, p.2) else (p.1, c :: p.2))

/-- One level of tdymeshplex.c 1837-1932: the first boundary cell goes to the front, a second one to
the end.  With three boundary cells positions stay uninitialised. -/
noncomputable def levelOrder (m : TMesh) (v : Nat) (cells : List Nat) : Out (List Nat) :=
  if cells.length < 2 then .ok cells
  else (splitBnd m v cells).bind fun p =>
    match p.1 with
    | [] => .ok cells
    | [b] => .ok (b :: p.2)
    | [b, b'] => .ok (b :: p.2 ++ [b'])
    | _ => .ub

/-- `DetermineCellsAboveAndBelow`, tdymeshplex.c 1808-1949. -/
noncomputable def aboveBelow (m : TMesh) (v : Nat) : Out (List Nat × List Nat) :=
  let A := (m.vCells v).filter fun c => isAbove m c v
  let B := (m.vCells v).filter fun c => !isAbove m c v
  (levelOrder m v A).bind fun A' => (levelOrder m v B).bind fun B' =>
    if A.length > 0 && B.length > 0 then
      if A.length != B.length then .err else .ok (A', B')
    else if A.length == 0 && B.length == 0 then .err
    else .ok (A', B')

/-- `cellsAbove` and `cellsBelow`: the rows of the vertices, `none` while the count is -1. -/
structure Rows where
  above : Nat → Option (List Nat)
  below : Nat → Option (List Nat)

/-- `row[v] = x` -/
def setRow (r : Nat → Option (List Nat)) (v : Nat) (x : Option (List Nat)) : Nat → Option (List Nat) :=
  fun w => if w = v then x else r w

/-- `SaveCellIdsAtOppositeLevel`, tdymeshplex.c 2694-2706, for `cells = c :: _`: the row that is
written (out of bounds if there is no such vertex). -/
noncomputable def saveOpposite (m : TMesh) (v : Nat) (cells : List Nat) (r : Nat → Option (List Nat)) :
    Out (Nat → Option (List Nat)) :=
  match cells with
  | [] => .ok r
  | c :: _ =>
    if vertexSameXY m c v < m.numVertices then .ok (setRow r (vertexSameXY m c v) (some cells))
    else .ub

/-- `FindCellsAboveAndBelowAVertex`, tdymeshplex.c 2708-2754. -/
noncomputable def findAtVertex (m : TMesh) (v : Nat) (st : Rows) : Res Rows :=
  match aboveBelow m v with
  | .err => .err st
  | .ub => .ub
  | .ok (A, B) =>
    match saveOpposite m v A (setRow st.below v (some B)) with
    | .ok below =>
      match saveOpposite m v B (setRow st.above v (some A)) with
      | .ok above => .ok ⟨above, below⟩
      | _ => .ub
    | _ => .ub

/-- `FindCellsAtUninitializedLevel`, tdymeshplex.c 2756-2797: the row of the other level. -/
def otherLevel (m : TMesh) (v : Nat) (init : List Nat) : Option (List Nat) :=
  if (m.vCells v).length = init.length then none
  else some ((m.vCells v).filter fun c => !init.contains c)

/-- The body of the loop of `FindCellsAboveAndBelowVertices`, tdymeshplex.c 2806-2823. -/
noncomputable def findStep (m : TMesh) (v : Nat) (st : Rows) : Res Rows :=
  if !m.isLocal v then .ok st
  else match st.above v, st.below v with
  | none, none => findAtVertex m v st
  | some A, none => .ok ⟨st.above, setRow st.below v (otherLevel m v A)⟩
  | none, some B => .ok ⟨setRow st.above v (otherLevel m v B), st.below⟩
  | some _, some _ => .ok st

/-- `FindCellsAboveAndBelowVertices`, tdymeshplex.c 2799-2827, from rows initialised to -1. -/
noncomputable def findAll (m : TMesh) : Res Rows :=
  forN m.numVertices (fun v r => r.bind (findStep m v)) (.ok ⟨fun _ => none, fun _ => none⟩)

/-- `AreCellsNeighbors`, tdymeshplex.c 1952-1974. -/
def areNeighbors (m : TMesh) (c d : Nat) : Bool :=
  (m.cellFaces c).any fun f => (m.cellFaces d).any fun g => f == g

/-- `nNeighbors[ii]`, tdymeshplex.c 1986-2000. -/
def nNeighbors (m : TMesh) (cells : List Nat) (i : Nat) : Nat :=
  ((cells.take i).filter fun d => areNeighbors m d (cells.getD i 0)).length
    + ((cells.drop (i + 1)).filter fun d => areNeighbors m (cells.getD i 0) d).length

/-- The greedy search of tdymeshplex.c 2060-2086: starting from `cur`, always continue with the
first cell not used so far that is a neighbour.  The marks `cell_used` are kept as the list of the
cells not used. -/
def greedy (m : TMesh) : Nat → Nat → List Nat → Out (List Nat)
  | 0, cur, _ => .ok [cur]
  | n + 1, cur, unused =>
    match unused.find? fun d => areNeighbors m cur d with
    | none => .err
    | some d => (greedy m n d (unused.erase d)).bind fun l => .ok (cur :: l)

/-- `ArrangeCellsInCircularOrder`, tdymeshplex.c 1977-2093.  `minIdx` (2004-2013) is the first cell
with the least number of neighbours; it goes first, then the cells with more neighbours, then the
other cell with the least number. -/
def circularOrder (m : TMesh) (cells : List Nat) : Out (List Nat) :=
  let z := cells.zip ((List.range cells.length).map (nNeighbors m cells))
  let minN := (z.map Prod.snd).foldl min cells.length
  let maxN := (z.map Prod.snd).foldl max 0
  let ends := z.filter fun p => p.2 == minN
  let mids := z.filter fun p => decide (minN < p.2)
  if minN ≠ maxN ∧ ends.length ≠ 2 then .err
  else
    let cells' := if minN ≠ maxN then (ends.take 1 ++ mids ++ ends.drop 1).map Prod.fst else cells
    match cells' with
    | [] => .ub
    | c :: cs => greedy m cs.length c cs

/-- `IDofFaceSharedByTwoCellsForACommonVertex`, tdymeshplex.c 2096-2128. -/
def sharedFace (m : TMesh) (v c d : Nat) : Nat :=
  ((m.vFaces v).find? fun f =>
    ((m.faceCells f).1 == c || (m.faceCells f).1 == d) &&
    ((m.faceCells f).2 == c || (m.faceCells f).2 == d)).getD errUser

/-- `PointsAreInAntiClockDirInXYPlane`, tdymeshplex.c 2131-2151. -/
noncomputable def antiClock (a b c : Geo.P3) : Bool :=
  decide ((Geo.cross ⟨b.x - a.x, b.y - a.y, 0.0⟩ ⟨c.x - a.x, c.y - a.y, 0.0⟩).z > 0.0)

/-- `ArrangeCellsInAntiClockwiseDirection`, tdymeshplex.c 2155-2195.  With a single cell
`inp_cell_order[1]` is read out of bounds. -/
noncomputable def antiClockwise (m : TMesh) (v : Nat) (order : List Nat) : Out (List Nat) :=
  match order with
  | c :: d :: _ =>
    .ok (if antiClock (m.coord v) (m.cellCen c) (m.faceCen (sharedFace m v c d)) then order
      else order.reverse)
  | _ => .ub

/-- `RearrangeCellsInListAsNeighbors`, tdymeshplex.c 2198-2221: for every cell of the first list the
first neighbour in the second. -/
def alignLevels (m : TMesh) (cells : List Nat) : List Nat → Out (List Nat)
  | [] => .ok []
  | a :: as =>
    match cells.find? fun b => areNeighbors m a b with
    | none => .err
    | some b => (alignLevels m cells as).bind fun l => .ok (b :: l)

/-- `RearrangeCellsInAntiClockwiseDir`, tdymeshplex.c 2224-2255.  Only the first `ncells_abv` cells
below are looked at; should there be more, the others stay behind them. -/
noncomputable def rearrange (m : TMesh) (v : Nat) (A B : List Nat) : Out (List Nat × List Nat) :=
  if A.length > 0 then
    (circularOrder m A).bind fun o => (antiClockwise m v o).bind fun A' =>
      if B.length > 0 then
        (alignLevels m (B.take A.length) A').bind fun B' => .ok (A', B' ++ B.drop A.length)
      else .ok (A', B)
  else
    (circularOrder m B).bind fun o => (antiClockwise m v o).bind fun B' => .ok (A, B')

/-- Whether the cell is on one of the two sides of the face (tdymeshplex.c 2298-2299, 2345-2346,
2472-2473). -/
def owns (m : TMesh) (c f : Nat) : Bool :=
  (m.faceCells f).1 == (c : ℤ) || (m.faceCells f).2 == (c : ℤ)

/-- Whether the face has a vertex straight above or below `v` (tdymeshplex.c 2306-2308). -/
noncomputable def upright (m : TMesh) (v f : Nat) : Bool :=
  (m.faceVerts f).any fun w => w != v && sameXY m v w

/-- The `ii`-th boundary face of the vertex. -/
def bndFace (m : TMesh) (v ii : Nat) : Nat := (m.vBnd v).getD ii 0

/-- `AddTwoBndFacesOfTwoCellsInTraversalDirection`, tdymeshplex.c 2258-2324, for a row `t`. -/
noncomputable def addTwo (m : TMesh) (v : Nat) (cells : List Nat) (t : Nat → ℤ) : Nat → ℤ :=
  let nb := (m.vBnd v).length
  let nc := (m.vCells v).length
  let last := (List.range nb).find? fun ii =>
    owns m (cells.getLastD 0) (bndFace m v ii) && upright m v (bndFace m v ii)
  let first := (List.range nb).find? fun ii =>
    some ii != last && (owns m (cells.headD 0) (bndFace m v ii) && upright m v (bndFace m v ii))
  let t := match last with
    | some ii => wr t cells.length ((nc + ii : Nat) : ℤ)
    | none => t
  match first with
  | some ii => wr t (cells.length + 1) ((nc + ii : Nat) : ℤ)
  | none => t

/-- `AddTwoBndFacesOfACellInTraversalDirection`, tdymeshplex.c 2327-2384.  If the cell does not have
two boundary faces the function returns an error that its caller (2426-2431) ignores, leaving the
row as it is. -/
noncomputable def addOne (m : TMesh) (v c : Nat) (t : Nat → ℤ) : Nat → ℤ :=
  let nc := (m.vCells v).length
  match (List.range (m.vBnd v).length).filter fun ii => owns m c (bndFace m v ii) with
  | [i1, i2] =>
    if antiClock (m.coord v) (m.cellCen c) (m.faceCen (bndFace m v i1)) then
      wr (wr t 1 ((nc + i1 : Nat) : ℤ)) 2 ((nc + i2 : Nat) : ℤ)
    else wr (wr t 1 ((nc + i2 : Nat) : ℤ)) 2 ((nc + i1 : Nat) : ℤ)
  | _ => t

/-- The local numbers of cells, tdymeshplex.c 2407-2420. -/
def localCells (m : TMesh) (v : Nat) : List Nat → Out (List Nat)
  | [] => .ok []
  | c :: cs =>
    match (m.vCells v).findIdx? fun d => d == c with
    | none => .err
    | some j => (localCells m v cs).bind fun l => .ok (j :: l)

/-- The row that starts with the given numbers and goes on with -1. -/
def rowOf (l : List Nat) : Nat → ℤ := fun i => (l[i]?).elim (-1) Int.ofNat

/-- `ConvertCellsAntiClockwiseDirInTraversalDir`, tdymeshplex.c 2386-2436, on a row of -1
(tdymeshplex.c 2658-2659). -/
noncomputable def convert (m : TMesh) (v : Nat) (cells : List Nat) : Out (Nat → ℤ) :=
  if cells.length = 0 then .ok (rowOf [])
  else (localCells m v cells).bind fun l =>
    if (m.vBnd v).length = 0 then .ok (rowOf l)
    else if cells.length > 1 then .ok (addTwo m v cells (rowOf l))
    else .ok (addOne m v (cells.headD 0) (rowOf l))

/-- The search of tdymeshplex.c 2467-2480 for the cells from the `ii`-th on: the first unused
boundary face of each. -/
def addFlat (m : TMesh) (v : Nat) : List Nat → Nat → (Nat → Bool) → (Nat → ℤ) → (Nat → ℤ)
  | [], _, _, t => t
  | c :: cs, ii, used, t =>
    match (List.range (m.vBnd v).length).find? fun jj => !used jj && owns m c (bndFace m v jj) with
    | none => addFlat m v cs (ii + 1) used t
    | some jj =>
      addFlat m v cs (ii + 1) (wr used jj true) (wr t ii (((m.vCells v).length + jj : Nat) : ℤ))

/-- `bnd_faces_found` at tdymeshplex.c 2457-2464 -/
def usedFaces (m : TMesh) (v : Nat) (t : Nat → ℤ) : Nat → Bool := fun jj =>
  (List.range ((m.vCells v).length + (m.vBnd v).length)).any fun i =>
    t i == (((m.vCells v).length + jj : Nat) : ℤ)

/-- `AddUpDownBndFacesOfCellsInTraversalDirection`, tdymeshplex.c 2438-2482: the row of the level
without cells, from the row `t` of the level with cells. -/
def addUpDown (m : TMesh) (v : Nat) (cells : List Nat) (t tFaces : Nat → ℤ) : Nat → ℤ :=
  addFlat m v cells 0 (usedFaces m v t) tFaces

/-- One level of tdymeshplex.c 2495-2519 (`flip` for level 1): connections of consecutive entries, up
to the first -1, after which the row closes with its first entry; none between two faces. -/
def levelConns (N nc : Nat) (flip : Bool) (t : Nat → ℤ) : List (ℤ × ℤ) :=
  ((List.range N).takeWhile fun i => t i != -1).filterMap fun i =>
    let b0 := if i = N - 1 then t 0 else t (i + 1)
    let b := if b0 = -1 then t 0 else b0
    if (nc : ℤ) ≤ t i ∧ (nc : ℤ) ≤ b then none
    else some (if flip then (b, t i) else (t i, b))

/-- tdymeshplex.c 2523-2538: connections between the levels. -/
def crossConns (N nc : Nat) (t0 t1 : Nat → ℤ) : List (ℤ × ℤ) :=
  ((List.range N).takeWhile fun i => t0 i != -1 && t1 i != -1).filterMap fun i =>
    if (nc : ℤ) ≤ t0 i ∧ (nc : ℤ) ≤ t1 i then none
    else some (if i % 2 = 0 then (t0 i, t1 i) else (t1 i, t0 i))

/-- A connection between two cells (tdymeshplex.c 2548). -/
def isCellPair (nc : Nat) (p : ℤ × ℤ) : Bool := decide (p.1 < nc) && decide (p.2 < nc)

/-- `SetUpToDownConnections`, tdymeshplex.c 2484-2569: `cell_up2dw`, which has `max_vertex_faces`
rows (2661). -/
def connections (m : TMesh) (v : Nat) (t0 t1 : Nat → ℤ) : Out (List (ℤ × ℤ)) :=
  let nc := (m.vCells v).length
  let N := nc + (m.vBnd v).length
  let l := levelConns N nc false t0 ++ levelConns N nc true t1 ++ crossConns N nc t0 t1
  if m.maxVertexFaces < l.length then .ub
  else .ok (l.filter (isCellPair nc) ++ l.filter fun p => !isCellPair nc p)

/-- The part of `DetermineUpwindFacesForSubcell_PlanarVerticalFaces`, tdymeshplex.c 2571-2684, that
determines the connections, from the rows of the vertex (a count of -1 is treated as 0,
2641-2655). -/
noncomputable def upToDown (m : TMesh) (v : Nat) (A B : List Nat) : Out (List (ℤ × ℤ)) :=
  (if A.length > 1 then rearrange m v A B
   else if B.length > 1 then rearrange m v A B
   else .ok (A, B)).bind fun AB =>
  (convert m v AB.1).bind fun t0 => (convert m v AB.2).bind fun t1 =>
    if AB.1.length = 0 then connections m v (addUpDown m v AB.2 t1 t0) t1
    else if AB.2.length = 0 then connections m v t0 (addUpDown m v AB.1 t0 t1)
    else connections m v t0 t1

/-- `TDyReturnIndexInList`, tdyutils.c 465-482. -/
def indexInList (l : List Nat) (c : ℤ) : Nat := (l.findIdx? fun (d : Nat) => (d : ℤ) == c).getD errUser

/-- The first connection between two given local numbers, in either direction (tdymeshplex.c
1600-1616). -/
def findConn (conns : List (ℤ × ℤ)) (a b : ℤ) : Option Nat :=
  conns.findIdx? fun p => p == (a, b) || p == (b, a)

/-- Whether face `x` has no cell on one of its sides (tdymeshplex.c 1578). -/
def onBoundary (m : TMesh) (x : Nat) : Bool :=
  decide ((m.faceCells x).1 < 0) || decide ((m.faceCells x).2 < 0)

/-- `face_unknown_idx` of an internal face, tdymeshplex.c 1596-1616; `none` is the initial -1. -/
def linkOf (m : TMesh) (v : Nat) (conns : List (ℤ × ℤ)) (x : Nat) : Option Nat :=
  findConn conns (indexInList (m.vCells v) (m.faceCells x).1)
    (indexInList (m.vCells v) (m.faceCells x).2)

/-- `is_face_up` for face `x` seen from the `i`-th cell, tdymeshplex.c 1583-1593 and 1596-1616.
An entry that is not found keeps its initial value -1, which is treated as true where the fluxes are
numbered (1684). -/
def upOf (m : TMesh) (v : Nat) (conns : List (ℤ × ℤ)) (i x : Nat) : Bool :=
  let nc := (m.vCells v).length
  if onBoundary m x then
    let a := (((nc + ((m.vBnd v).findIdx? fun y => y == x).getD 0 : Nat)) : ℤ)
    match conns.find? fun p => p == (a, (i : ℤ)) || p == ((i : ℤ), a) with
    | some p => p == (a, (i : ℤ))
    | none => true
  else
    let c1 := ((indexInList (m.vCells v) (m.faceCells x).1 : Nat) : ℤ)
    let c2 := ((indexInList (m.vCells v) (m.faceCells x).2 : Nat) : ℤ)
    match conns.find? fun p => p == (c1, c2) || p == (c2, c1) with
    | some p =>
      if p == (c1, c2) then (((m.vCells v).getD i 0 : Nat) : ℤ) == (m.faceCells x).1
      else (((m.vCells v).getD i 0 : Nat) : ℤ) == (m.faceCells x).2
    | none => true

/-- The vertex as the rest of `SetupUpwindFacesForSubcell` (tdymeshplex.c 1530-1711, see
`Verif/Model/MpfaoTrans.lean`) and the transmissibilities see it.  `G` and `bnd` are not set here.
`num_faces` is the length of the face list of the vertex, `num_boundary_faces` that of its boundary
faces, `nflux_in` the number of internal faces in the list (1550-1554). -/
def vtxOf (m : TMesh) (v : Nat) (conns : List (ℤ × ℤ)) (G : Nat → Nat → Nat → ℝ)
    (bnd : Nat → Nat → Nat) (dirichlet : Bool) : Mpfao.Vtx where
  npcen := (m.vCells v).length
  sub := fun i =>
    { G := G i
      internal := fun f => m.faceInternal (m.subFace v i f)
      up := fun f => upOf m v conns i (m.subFace v i f)
      link := fun f => (linkOf m v conns (m.subFace v i f)).getD 0
      bnd := bnd i
      face := fun f => m.subFace v i f }
  nFaces := (m.vFaces v).length
  nBnd := (m.vBnd v).length
  nIntFaces := ((m.vFaces v).filter fun x => m.faceInternal x).length
  ids0 := fun k => (m.vFaces v).getD k 0
  dirichlet := dirichlet

/-- `SetupUpwindFacesForSubcell`, tdymeshplex.c 1657-1680: an internal face whose cells were not
connected has the number -1, and `vertex_face_ids[-1]` is written. -/
def linked (m : TMesh) (v : Nat) (conns : List (ℤ × ℤ)) : Out (List (ℤ × ℤ)) :=
  if (List.range (m.vCells v).length).all fun i => (List.range 3).all fun f =>
      !m.faceInternal (m.subFace v i f) || (linkOf m v conns (m.subFace v i f)).isSome
  then .ok conns else .ub

/-- `DetermineUpwindFacesForSubcell_PlanarVerticalFaces`, tdymeshplex.c 2571-2692. -/
noncomputable def upwindFaces (m : TMesh) (v : Nat) (st : Rows) : Out (List (ℤ × ℤ)) :=
  (upToDown m v ((st.above v).getD []) ((st.below v).getD [])).bind (linked m v)

/-- The loop of tdymeshplex.c 3045-3049: the connections of every local vertex with more than one
cell (the empty list for the others). -/
noncomputable def upwindAll (m : TMesh) (st : Rows) : Nat → Out (Nat → List (ℤ × ℤ))
  | 0 => .ok fun _ => []
  | n + 1 =>
    (upwindAll m st n).bind fun r =>
      if decide ((m.vCells n).length > 1) && m.isLocal n then
        (upwindFaces m n st).bind fun c => .ok fun w => if w = n then c else r w
      else .ok r

/-- The end of `SetupSubcells`, tdymeshplex.c 3036-3056: the return code of
`FindCellsAboveAndBelowVertices` is not looked at (3043). -/
noncomputable def setupTraversal (m : TMesh) : Out (Nat → List (ℤ × ℤ)) :=
  match findAll m with
  | .ok st => upwindAll m st m.numVertices
  | .err st => upwindAll m st m.numVertices
  | .ub => .ub

end TDy.Traverse
