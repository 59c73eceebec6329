import Mathlib.Data.Real.Basic
import Mathlib.Data.List.Basic
import Mathlib.Algebra.BigOperators.Group.Finset.Basic
import Verif.Basic
import Verif.Loop

/-!
# Model of the maps of the finite element methods

src/fe/tdyfe.c 12-151: from the corners of the reference cell to vertices, and from corners and
directions to faces; src/fe/tdybdm.c 189-271: the numbering of the velocity unknowns.

What is read from DMPlex is data of the model: the closures, the coordinates, and the images of the
reference corners (`DMPlexComputeCellGeometryFEM`).  Cells are numbered from `cStart = 0`, as the
indices `c*nv` of the code require.  A release build is modelled: the tests under
`PETSC_USE_DEBUG` are not made.
-/

namespace TDy.Fe

noncomputable section

/-- What is read about the mesh. -/
structure Plex where
  dim : Nat
  nCells : Nat
  /-- number of vertices per cell (`nv`, `ncv`), per face (`nfv`) -/
  ncv : Nat
  nfv : Nat
  vStart : Nat
  vEnd : Nat
  fStart : Nat
  fEnd : Nat
  /-- points of the closure of a point, in the order of `DMPlexGetTransitiveClosure` (the
  orientations stored between them are not read) -/
  closure : Nat → List Nat
  /-- coordinates of vertices, centroids of the other points; normals of faces -/
  X : Nat → Nat → ℝ
  N : Nat → Nat → ℝ
  /-- `x[v*dim+d]` of a cell: the image of reference corner `v` -/
  image : Nat → Nat → Nat → ℝ

/-- A vertex of the mesh: `(p >= vStart) && (p < vEnd)` -/
def Plex.isVertex (m : Plex) (p : Nat) : Bool := decide (m.vStart ≤ p) && decide (p < m.vEnd)

/-- A face of the mesh: `(p >= fStart) && (p < fEnd)` -/
def Plex.isFace (m : Plex) (p : Nat) : Bool := decide (m.fStart ≤ p) && decide (p < m.fEnd)

/-- TDyL1norm (src/tdycore.c:1535-1541) -/
def l1norm (x y : Nat → ℝ) (dim : Nat) : ℝ := forN dim (fun i s => s + |x i - y i|) 0

/-- TDyADotBMinusC (src/tdycore.c:1549-1555) -/
def aDotBMinusC (a b c : Nat → ℝ) (dim : Nat) : ℝ := forN dim (fun i s => s + a i*(b i - c i)) 0

/-- PETSC_ERR_SUP of PETSc -/
def errSup : Int := 56

/-- TDyGetNumberOfCellVertices (src/tdycore.c:1478-1502), TDyGetNumberOfFaceVertices
(src/tdycore.c:1504-1527): the number of vertices in the closures of the given cells or faces.  The
functions return the number itself, so `SETERRQ(comm, PETSC_ERR_SUP, ...)` returns the error code as
a number. -/
def numberOfVertices (m : Plex) (points : List Nat) : Int :=
  go (-1) points
where
  go (nq : Int) : List Nat → Int
    | [] => nq
    | p :: ps =>
      let q : Int := ((m.closure p).filter m.isVertex).length
      let nq := if nq = -1 then q else nq
      if nq ≠ q then errSup else go nq ps

open Classical in
/-- CreateCellVertexMap (src/fe/tdyfe.c:19-61): entry `c*nv+v`.  The first vertex of the closure whose
distance to the image of the corner is not greater than 1e-12; the entry stays 0 if there is none
(`TDyAlloc` clears the array). -/
def vertexMap (m : Plex) (c v : Nat) : Nat :=
  ((m.closure c).find? (fun p => m.isVertex p &&
    !decide (l1norm (m.image c v) (m.X p) m.dim > 1/10^12))).getD 0

/-- TDySetup_BDM (src/fe/tdybdm.c:182-185), TDySetup_WY (src/fe/tdywy.c:380-390): the number of
vertices per cell is determined and handed to CreateCellVertexMap, which keeps the images of the
corners in arrays `x[24]`, `DF[72]`, `DFinv[72]`, `J[8]` of room for 8 corners (src/fe/tdyfe.c:24) and
reads `x[v*dim]` for `v < nv` (line 42).  The vertex map is the result. -/
def setupVertexMap (m : Plex) : Res (Nat → Nat → Nat) :=
  let nv := numberOfVertices m (List.range m.nCells)
  if m.nCells = 0 then .ok fun _ _ => 0
  else if nv*m.dim > 24 then .ub
  else .ok fun c v => if (v : Int) < nv then vertexMap m c v else 0

/-- CreateCellVertexDirFaceMap (src/fe/tdyfe.c:87-101): `local_dirs[q*dim+d]`. -/
def localDirs (dim k : Nat) : Nat :=
  if dim = 2 then ([2, 1, 3, 0, 0, 3, 1, 2] : List Nat).getD k 0
  else ([6, 5, 3, 7, 4, 2, 4, 7, 1, 5, 6, 0, 2, 1, 7, 3, 0, 6, 0, 3, 5, 1, 2, 4] : List Nat).getD k 0

open Classical in
/-- CreateCellVertexDirFaceMap (src/fe/tdyfe.c:121-130): the loop over the directions for face `f` of
cell `c`, corner `q` and point `p` of the closure of the face; `break` (line 127) ends the loop. -/
def dirLoop (m : Plex) (vmap : Nat → Nat) (c f q p : Nat) (map : Nat → Int) : Nat → Int :=
  (forN m.dim (fun d s =>
    if s.2 then s
    else if p = vmap (localDirs m.dim (q*m.dim + d)) then
      if aDotBMinusC (m.N f) (m.X f) (m.X c) m.dim < 0 then
        (wr s.1 (q*m.dim + d) (-(f : Int)), true)
      else (wr s.1 (q*m.dim + d) (f : Int), false)
    else s) (map, false)).1

/-- CreateCellVertexDirFaceMap (src/fe/tdyfe.c:113-137): the loop over the faces of cell `c` for
corner `q`. -/
def cornerLoop (m : Plex) (vmap : Nat → Nat) (c q : Nat) (map : Nat → Int) : Nat → Int :=
  (m.closure c).foldl (fun map f =>
    if m.isFace f then
      (m.closure f).foldl (fun map p1 =>
        if p1 = vmap q then
          (m.closure f).foldl (fun map p => dirLoop m vmap c f q p map) map
        else map) map
    else map) map

/-- CreateCellVertexDirFaceMap (src/fe/tdyfe.c:75-151): the entries `c*nv*dim + k` of cell `c`, which
no other cell writes; `vmap` is the row of the cell of the vertex map. -/
def dirFaceMap (m : Plex) (vmap : Nat → Nat) (c : Nat) : Nat → Int :=
  forN m.ncv (fun q map => cornerLoop m vmap c q map) (fun _ => 0)

/-- TDySetup_BDM (src/fe/tdybdm.c:189-211): the vertices of face `f`, `fmap[nfv*(f-fStart)+i]`: those
of its closure, in order; entries that are not written are 0. -/
def faceVertex (m : Plex) (f i : Nat) : Nat :=
  ((m.closure f).filter m.isVertex).getD i 0

/-- PetscSign -/
def petscSign (z : Int) : Int := if z < 0 then -1 else if z > 0 then 1 else 0

/-- `LtoG` and `orient` of one cell, and whether an error has been reported. -/
structure Dofs where
  ltog : Nat → Int
  orient : Nat → Int

/-- `if(mStart<0) mStart = -(mStart+1);` (src/fe/tdybdm.c:224 and 232): the global number of a point
owned by another process. -/
def decode (s : Int) : Int := if s < 0 then -(s + 1) else s

/-- TDySetup_BDM (src/fe/tdybdm.c:228-244): the unknown of corner `v` and direction `d`; `start` is
what `DMPlexGetPointGlobal` returns. -/
def dofStep (m : Plex) (start : Nat → Int) (vmap : Nat → Nat) (emap : Nat → Int) (v d : Nat)
    (s : Dofs) : Res Dofs :=
  let f := emap (v*m.dim + d)
  let mStart := decode (start f.natAbs)
  let r := forN m.nfv (fun i (r : Dofs × Bool) =>
    if vmap v = faceVertex m f.natAbs i then
      (⟨wr r.1.ltog (v*m.dim + d) (mStart + i), wr r.1.orient (v*m.dim + d) (petscSign f)⟩, true)
    else r) (s, false)
  if r.2 then .ok r.1 else .err r.1

/-- TDySetup_BDM (src/fe/tdybdm.c:222-247): the unknowns of cell `c`. -/
def cellDofs (m : Plex) (start : Nat → Int) (c : Nat) : Res Dofs :=
  let vmap := vertexMap m c
  let emap := dirFaceMap m vmap c
  let nlocal := m.dim*m.ncv + 1
  forN m.ncv (fun v (r : Res Dofs) => forN m.dim (fun d (r : Res Dofs) =>
    r.bind (dofStep m start vmap emap v d)) r)
    (.ok ⟨wr (fun _ => 0) (nlocal - 1) (decode (start c)), fun _ => 0⟩)

/-- TDySetup_BDM (src/fe/tdybdm.c:255-263), TDySetup_WY (src/fe/tdywy.c:434-442): the face of a cell
in direction `d` on side `s`. -/
def sideFace (m : Plex) (c d s : Nat) : Nat :=
  (dirFaceMap m (vertexMap m c) c (s*2^d*m.dim + d)).natAbs

end

end TDy.Fe
