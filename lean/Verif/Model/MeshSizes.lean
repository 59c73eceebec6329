import Verif.Basic
import Verif.Loop

/-!
# Sizes that depend on how many cells and faces meet at a vertex

Models `TDyMaxNumOfAElmTypeSharingOtherElmType` and its callers (src/tdyutils.c:163-236), the sizes of
the arrays of transmissibilities and the entries of them that are written
(src/fv/mpfao/tdympfao.c:1126-1513, 1515-1756, 1801-1860, 2310-2320, 2419-2430, 2488-2499).
-/

namespace TDy.Sizes

open TDy

/-- The saved closures of points (`mesh->closureSize`, `mesh->closure`; every second entry is a point,
the others are orientations) and the ranges of vertices, faces and cells. -/
structure Saved where
  (vS vE fS fE cS cE : Nat)
  size : Nat → Nat
  closure : Nat → Nat → Nat

/-- src/tdyutils.c:172-176: how many points of the closure of `a` lie in `oS .. oE - 1`. -/
def count (m : Saved) (a oS oE : Nat) : Nat :=
  forN (m.size a) (fun i n =>
    if oS ≤ m.closure a (2*i) ∧ m.closure a (2*i) < oE then n + 1 else n) 0

/-- src/tdyutils.c:163-181, `TDyMaxNumOfAElmTypeSharingOtherElmType`. -/
def maxSharing (m : Saved) (aS aE oS oE : Nat) : Nat :=
  forN (aE - aS) (fun i result => max result (count m (aS + i) oS oE)) 0

/-- src/tdyutils.c:184-199, `TDyMaxNumberOfCellsSharingAVertex` (`ncv`). -/
def maxCells (m : Saved) : Nat := maxSharing m m.vS m.vE m.cS m.cE

/-- src/tdyutils.c:220-236, `TDyMaxNumberOfFacesSharingAVertex` (`nfv`). -/
def maxFaces (m : Saved) : Nat := maxSharing m m.vS m.vE m.fS m.fE

/-- An array made by `TDyAllocate_RealArray_3D(&a, n1, n2, n3)` (src/tdymemory.c:163-181): `n1*n2` rows.
`TDyAlloc(n3*sizeof(PetscReal), ..)` is `PetscCalloc1`, which multiplies by the size of an entry once
more, so that a row has `8*n3` entries. -/
structure Array3 where
  (n1 n2 n3 : Nat)
  data : Nat → Nat → Nat → Option Unit

/-- `a[v][r][c] = ..`: the row must exist and have the entry.  What is stored is not modelled. -/
def write (a : Array3) (v r c : Nat) : Res Array3 :=
  if v < a.n1 ∧ r < a.n2 ∧ c < 8*a.n3 then
    .ok { a with data := wr a.data v (wr (a.data v) r (wr (a.data v r) c (some ()))) }
  else .ub

/-- A vertex of the rank's part of the mesh: what `vertices` says of it
(`is_local`, `num_internal_cells`, `num_faces`, `num_boundary_faces`) and the numbers of boundary faces
that `DetermineNumberOfUpAndDownBoundaryFaces` finds (src/fv/mpfao/tdympfao.c:953-1000). -/
structure Vtx where
  isLocal : Bool
  (cells faces bnd up dn : Nat)

/-- The rows and columns of the array that are written for a vertex.  `dir`: boundary pressures are
given (`DIRICHLET_BC`, `SEEPAGE_BC`).
src/fv/mpfao/tdympfao.c:1813-1835, and 1430-1466 (all fluxes, of all cells and given pressures) or
1571-1578, 1742-1748 (a corner: three faces, three pressures and the cell). -/
def written (dir : Bool) (x : Vtx) : Nat × Nat :=
  if x.isLocal = false then (0, 0)
  else if x.bnd = 0 ∨ x.cells > 1 then
    let du := if dir then x.up else 0
    let dd := if dir then x.dn else 0
    let nu := if dir then 0 else x.up
    let nd := if dir then 0 else x.dn
    (x.faces - (du + dd) - (nu + nd) + du + dd, x.cells + (du + dd))
  else if dir then (3, 3 + 1)
  else (0, 0)

/-- src/fv/mpfao/tdympfao.c:1812-1836, the loop over vertices of `ComputeTransmissibilityMatrix`. -/
def fill (nv : Nat) (x : Nat → Vtx) (dir : Bool) (a : Array3) : Res Array3 :=
  forN nv (fun v (r : Res Array3) => r.bind fun a =>
    forN (written dir (x v)).1 (fun i (r : Res Array3) => r.bind fun a =>
      forN (written dir (x v)).2 (fun j (r : Res Array3) => r.bind fun a => write a v i j)
        (.ok a)) (.ok a)) (.ok a)

/-- The array of pressure (src/fv/mpfao/tdympfao.c:2310-2311, 2366-2367, 2419-2420, 2488-2489). -/
def newTrans (m : Saved) : Array3 :=
  ⟨m.vE - m.vS, maxFaces m, maxFaces m + maxCells m, fun _ _ _ => none⟩

/-- The arrays of temperature and of concentration (src/fv/mpfao/tdympfao.c:2428-2429, 2497-2498):
fewer columns. -/
def newTempTrans (m : Saved) : Array3 :=
  ⟨m.vE - m.vS, maxFaces m, maxFaces m, fun _ _ _ => none⟩

end TDy.Sizes
