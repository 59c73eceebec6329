import Verif.Basic
import Verif.Loop

/-!
# Cell types and their topology tables

src/fv/share/tdymesh.c:324-755 (counts per cell type), src/fv/share/tdymeshcustom.c:214-473 (vertices
of the faces of a cell), src/tdyutils.c:141-161 (uniform cell type) and the head of
TDyMeshCreateFromPlex (src/fv/share/tdymeshplex.c:3685-3753).

The functions of tdymesh.c return a count (or an enum, which is an int).  Their `default` branch is
`SETERRQ(..., PETSC_ERR_USER, ...)`, that is `return PetscError(...)`, whose value is the error code
83: the caller receives it as a count.
-/

namespace TDy.Topology

/-- `PETSC_ERR_USER` (petscerror.h). -/
def errUser : Int := 83

/-- `PETSC_ERR_SUP` (petscerror.h). -/
def errSup : Int := 56

/-- `CELL_TET_TYPE` (include/private/tdymeshimpl.h:20). -/
abbrev tet : Int := 0
/-- `CELL_PYRAMID_TYPE` (include/private/tdymeshimpl.h:21). -/
abbrev pyramid : Int := 1
/-- `CELL_WEDGE_TYPE` (include/private/tdymeshimpl.h:22). -/
abbrev wedge : Int := 2
/-- `CELL_HEX_TYPE` (include/private/tdymeshimpl.h:23). -/
abbrev hex : Int := 3

/-- `switch (cell_type)` with one value per cell type; the default branch returns the code. -/
def byType (t p w h : Int) (ct : Int) : Int :=
  if ct = tet then t else if ct = pyramid then p else if ct = wedge then w
  else if ct = hex then h else errUser

/-- GetCellType (tdymesh.c:324-350). -/
def getCellType (nverts : Int) : Int :=
  if nverts = 4 then tet else if nverts = 5 then pyramid else if nverts = 6 then wedge
  else if nverts = 8 then hex else errUser

/-- GetNumVerticesForCellType (tdymesh.c:355-377). -/
def numVertices : Int → Int := byType 4 5 6 8

/-- GetMaxNumCellsPerEdgeForCellType (tdymesh.c:382-404). -/
def maxCellsPerEdge : Int → Int := byType 3 4 4 4

/-- GetMaxNumCellsPerFaceForCellType (tdymesh.c:409-431). -/
def maxCellsPerFace : Int → Int := byType 2 2 2 2

/-- GetMaxNumOfFaceVerticesForCellType (tdymesh.c:437-453): no branch for tetrahedra and
pyramids. -/
def maxFaceVertices : Int → Int := byType errUser errUser 4 4

/-- GetNumOfVerticesOfIthFacesForCellType (tdymesh.c:517-550). -/
def faceVertices (ct : Int) (iface : Nat) : Int :=
  byType 3 (if 3 < iface then 4 else 3) (if 2 < iface then 3 else 4) 4 ct

/-- TDyGetFaceTypeForCellType (tdymesh.c:458-488); 0 is a triangle, 1 a quadrilateral. -/
def faceType (ct : Int) (iface : Nat) : Int :=
  byType 0 (if 3 < iface then 1 else 0) (if 2 < iface then 0 else 1) 1 ct

/-- TDyGetNumVerticesForFaceType (tdymesh.c:490-512). -/
def faceTypeVertices (ft : Int) : Int := if ft = 0 then 3 else if ft = 1 then 4 else errUser

/-- GetMaxNumOfFaceEdgesForCellType (tdymesh.c:555-577). -/
def maxFaceEdges : Int → Int := byType 3 4 4 4

/-- GetNumEdgesForCellType (tdymesh.c:582-604). -/
def numEdges : Int → Int := byType 6 8 9 12

/-- GetNumNeighborsForCellType (tdymesh.c:609-631). -/
def numNeighbors : Int → Int := byType 4 5 5 6

/-- GetNumFacesForCellType (tdymesh.c:636-658). -/
def numFaces : Int → Int := byType 4 5 5 6

/-- GetSubcellTypeForCellType (tdymesh.c:663-679): only wedges and hexahedra; 0 is
SUBCELL_HEX_TYPE. -/
def subcellType : Int → Int := byType errUser errUser 0 0

/-- `switch (subcell_type)` with the single case SUBCELL_HEX_TYPE. -/
def bySubcell (v : Int) (st : Int) : Int := if st = 0 then v else errUser

/-- GetNumSubcellsForSubcellType (tdymesh.c:684-696). -/
def numSubcells : Int → Int := bySubcell 8

/-- GetNumOfNuVectorsForSubcellType (tdymesh.c:701-713). -/
def numNuVectors : Int → Int := bySubcell 3

/-- GetNumVerticesForSubcellType (tdymesh.c:718-730). -/
def subcellVertices : Int → Int := bySubcell 8

/-- GetNumFacesForSubcellType (tdymesh.c:735-747). -/
def subcellFaces (st : Int) : Int := if st = 0 then numNuVectors st else errUser

/-- GetHexFaceVertices (tdymeshcustom.c:215-269). -/
def hexFace : Nat → List Nat
  | 0 => [0, 1, 5, 4]
  | 1 => [1, 2, 6, 5]
  | 2 => [2, 3, 7, 6]
  | 3 => [3, 0, 4, 7]
  | 4 => [0, 3, 2, 1]
  | 5 => [4, 5, 6, 7]
  | _ => []

/-- GetWedgeFaceVertices (tdymeshcustom.c:277-324); the -1 that pads a triangle is left out. -/
def wedgeFace : Nat → List Nat
  | 0 => [0, 1, 4, 3]
  | 1 => [1, 2, 5, 4]
  | 2 => [2, 0, 3, 5]
  | 3 => [0, 2, 1]
  | 4 => [3, 4, 5]
  | _ => []

/-- GetPyramidFaceVertices (tdymeshcustom.c:332-379). -/
def pyramidFace : Nat → List Nat
  | 0 => [0, 1, 4]
  | 1 => [1, 2, 4]
  | 2 => [2, 3, 4]
  | 3 => [3, 0, 4]
  | 4 => [0, 3, 2, 1]
  | _ => []

/-- GetTetFaceVertices (tdymeshcustom.c:387-427). -/
def tetFace : Nat → List Nat
  | 0 => [0, 1, 3]
  | 1 => [1, 2, 3]
  | 2 => [0, 3, 2]
  | 3 => [0, 2, 1]
  | _ => []

/-- GetFaceVertices (tdymeshcustom.c:436-464); an unknown type is reported. -/
def getFaceVertices (ct : Int) (iface : Nat) : Option (List Nat) :=
  let l := if ct = hex then hexFace iface else if ct = wedge then wedgeFace iface
    else if ct = pyramid then pyramidFace iface else if ct = tet then tetFace iface else []
  if l = [] then none else some l

/-! ## The head of TDyMeshCreateFromPlex -/

/-- TDyGetNumberOfCellVerticesWithClosures (src/tdyutils.c:141-161) on the number of vertices of
each cell: -1 without cells, the common number on a uniform mesh, and the code PETSC_ERR_SUP, given
back as the number of vertices, on a mixed one. -/
def cellVertices : List Int → Int
  | [] => -1
  | n :: rest => if ∀ m ∈ rest, m = n then n else errSup

/-- The sizes with which the mesh arrays are allocated (slots per entity). -/
structure Sizes where
  cellType : Int
  vertsPerCell : Int
  edgesPerCell : Int
  facesPerCell : Int
  cellsPerFace : Int
  vertsPerFace : Int
  subcellsPerCell : Int
  nuPerSubcell : Int
  deriving DecidableEq, Repr

/-- The sizes computed at tdymeshplex.c:3730-3752 (and in AllocateCells/AllocateFaces, tdymesh.c:23-31
and 266-268) from the number of vertices of each cell: no result is checked. -/
def sizesOf (counts : List Int) : Sizes :=
  let ct := getCellType (cellVertices counts)
  { cellType := ct
    vertsPerCell := numVertices ct
    edgesPerCell := numEdges ct
    facesPerCell := numFaces ct
    cellsPerFace := maxCellsPerFace ct
    vertsPerFace := maxFaceVertices ct
    subcellsPerCell := numSubcells (subcellType ct)
    nuPerSubcell := numNuVectors (subcellType ct) }

/-- TDyMeshCreateFromPlex up to the allocation of the tables (tdymeshplex.c:3685-3752): only the
dimension is checked. -/
def createSizes (dim : Nat) (counts : List Int) : Res Sizes :=
  if dim ≠ 3 then .err (sizesOf counts) else .ok (sizesOf counts)

/-- The index of subcell `isub` of cell `icell` (tdymeshplex.c:466, 565, 2869 and
src/fv/mpfao/tdympfao_utils.c:314): `cells->num_subcells` is the number of vertices of the cell
(tdymesh.c:31), not the number of subcells allocated. -/
def subcellIndex (ct : Int) (icell isub : Nat) : Nat := icell * (numVertices ct).toNat + isub

end TDy.Topology
