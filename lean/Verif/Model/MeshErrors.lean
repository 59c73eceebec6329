import Verif.Basic
import Mathlib.Data.List.Basic

/-!
Errors while the mesh is made: the function that creates the DM (src/tdycore.c:668-680) and the
creation of the mesh in the set-up of MPFA-O and of the two-point method
(src/fv/share/tdymeshplex.c:3676-3785, src/fv/mpfao/tdympfao.c:2277-2521,
src/fv/fvtpf/tdyfvtpf.c:450-497).
-/

namespace TDy.MeshErrors

/-- The calls `TDyMeshCreateFromPlex` makes after it has allocated the mesh, in their order
(src/fv/share/tdymeshplex.c:3704-3780); each is followed by `CHKERRQ`. -/
inductive Stage where
  | strata | allocateClosures | saveClosures | allocateCells | allocateEdges | allocateFaces
  | allocateVertices | allocateSubcells | computeGeometry | assignGeometry | connectivity | region
  | localCells | localVertices | localEdges | localFaces | naturalIds | compressCells
  | compressVertices | compressSubcells | compressFaces | orderFaces | orientCells | setupSubcells
  deriving DecidableEq, Repr

/-- src/fv/share/tdymeshplex.c:3701-3780, the order of the calls. -/
def stages : List Stage :=
  [.strata, .allocateClosures, .saveClosures, .allocateCells, .allocateEdges, .allocateFaces,
   .allocateVertices, .allocateSubcells, .computeGeometry, .assignGeometry, .connectivity, .region,
   .localCells, .localVertices, .localEdges, .localFaces, .naturalIds, .compressCells,
   .compressVertices, .compressSubcells, .compressFaces, .orderFaces, .orientCells, .setupSubcells]

/-- `ierr = f(); CHKERRQ(ierr);` for a list of calls: the calls that were completed, and whether an
error ended the sequence. -/
def attempt (fails : Stage → Bool) : List Stage → List Stage × Bool
  | [] => ([], false)
  | s :: l =>
    if fails s then ([], true)
    else
      let r := attempt fails l
      (s :: r.1, r.2)

/-- src/fv/share/tdymeshplex.c:3685-3785, `TDyMeshCreateFromPlex`: the mesh (NULL, or the list of the
calls that were completed on it) and whether a non-zero code is returned.  The mesh is allocated
after the check of the dimension.  Simplification: line 3781 (`ComputeGeoAttrOfFaces`, whose return
code is dropped) is not a stage. -/
def createFromPlex (dim : Int) (fails : Stage → Bool) : Option (List Stage) × Bool :=
  if dim ≠ 3 then (none, true)
  else
    let r := attempt fails stages
    (some r.1, r.2)

/-- The set-up functions that create a mesh from a DMPlex. -/
inductive Setup where
  /-- src/fv/mpfao/tdympfao.c:2277-2331 -/
  | richardsMpfao
  /-- src/fv/mpfao/tdympfao.c:2388-2452 -/
  | thMpfao
  /-- src/fv/mpfao/tdympfao.c:2455-2521 -/
  | salinityMpfao
  /-- src/fv/fvtpf/tdyfvtpf.c:450-497 -/
  | richardsFvtpf
  deriving DecidableEq, Repr

/-- src/fv/mpfao/tdympfao.c:2290-2291, 2399-2400, 2468-2469 and src/fv/fvtpf/tdyfvtpf.c:470-471: the
return code of `TDyMeshCreateFromPlex` is not looked at, and `TDyMeshGetMaxVertexConnectivity`
(src/fv/share/tdymesh.c:917-924) dereferences the mesh.  `rest` is what the remaining lines of the
function do with the mesh as it then is. -/
def setup (_f : Setup) (dim : Int) (fails : Stage → Bool) (rest : List Stage → Res Unit) :
    Res Unit :=
  match (createFromPlex dim fails).1 with
  | none => .ub
  | some done => rest done

/-- src/tdycore.c:668-680: who creates the DM. -/
inductive Maker where
  | user | fortran | petsc
  deriving DecidableEq, Repr

/-- What the function that creates the DM does: it may fail, and may have stored a DM before. -/
structure Made where
  fails : Bool
  stored : Bool
  deriving DecidableEq, Repr

/-- src/tdycore.c:663-680: the local variable `dm` is not initialised; the return code of the function
given by the user, in C or in Fortran, is dropped, the one of `DMPlexCreate` is not;
`DMSetFromOptions` then dereferences the DM. -/
def makeDm (m : Maker) (r : Made) : Res Unit :=
  if m = .petsc ∧ r.fails = true then .err ()
  else if r.stored then .ok () else .ub

end TDy.MeshErrors
