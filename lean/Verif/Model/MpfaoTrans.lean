import Verif.Loop
import Verif.Model.Geometry
import Mathlib.LinearAlgebra.Matrix.NonsingularInverse
import Mathlib.Data.Real.Basic

/-!
# MPFA-O: transmissibilities of one vertex

Models `src/fv/mpfao/tdympfao.c` lines 13-126, 874-1513, the subcell geometry in
`src/fv/share/tdymeshplex.c` lines 1384-1412 and 2890-2999, and the numbering of unknowns and fluxes in
`src/fv/share/tdymeshplex.c` lines 1530-1711.

Around a vertex every cell contributes one subcell with three subfaces.  Pressures on the subfaces
(interface pressures) are eliminated by requiring the two one-sided fluxes of each internal subface
to agree (and Neumann boundary subfaces to carry nothing); what remains expresses each subface flux
through the cell pressures and, for Dirichlet or seepage boundaries, the boundary pressures.

Floating point numbers are real numbers.  Matrices stored as arrays of rows or in column-major
one-dimensional buffers are functions of a row and a column index.
-/

namespace TDy.Mpfao

/-- `ComputeEntryOfGMatrix`, tdympfao.c 13-37: `(n · (K v)) * (1/T) * area`. -/
noncomputable def entryOfG (area : ℝ) (n : Geo.P3) (K : Fin 3 → Fin 3 → ℝ) (v : Geo.P3)
    (T : ℝ) : ℝ :=
  let Kv : Fin 3 → ℝ := fun i => 0.0 + K i 0 * v.x + K i 1 * v.y + K i 2 * v.z
  (0.0 + n.x * Kv 0 + n.y * Kv 1 + n.z * Kv 2) * (1.0 / T * area)

/-- `UpdateFaceOrientationAroundAVertex`, tdymeshplex.c 1384-1412: the order of the three faces of a
cell at a vertex, from the face centroids `fc`, the cell centroid and the vertex. -/
noncomputable def orientFaces (fc : Nat → Geo.P3) (cen vtx : Geo.P3) (f : Fin 3 → Nat) :
    Fin 3 → Nat :=
  let axb := Geo.cross (Geo.join (fc (f 0)) (fc (f 1))) (Geo.join (fc (f 0)) (fc (f 2)))
  if Geo.dot axb (Geo.join vtx cen) < 0 then ![f 0, f 2, f 1] else f

/-- `subcells->T`, tdymeshplex.c 2901-2902. -/
noncomputable def subcellT (fc : Nat → Geo.P3) (cen : Geo.P3) (f : Fin 3 → Nat) : ℝ :=
  Geo.tetVolume cen (fc (f 0)) (fc (f 1)) (fc (f 2)) * 6.0

/-- `nu_vectors[k]`, tdymeshplex.c 2952-2999. -/
noncomputable def nuVector (fc : Nat → Geo.P3) (cen : Geo.P3) (f : Fin 3 → Nat) (k : Fin 3) :
    Geo.P3 :=
  match k with
  | 0 => Geo.normalTriangle cen (fc (f 1)) (fc (f 2))
  | 1 => Geo.normalTriangle cen (fc (f 2)) (fc (f 0))
  | 2 => Geo.normalTriangle cen (fc (f 0)) (fc (f 1))

/-- `subc_Gmatrix[icell][isubcell][ii][jj]` as set by `ComputeGMatrix_MPFAO`, tdympfao.c 39-126, for
face areas and normals given per face. -/
noncomputable def gMatrix (K : Fin 3 → Fin 3 → ℝ) (area : Nat → ℝ) (normal : Nat → Geo.P3)
    (fc : Nat → Geo.P3) (cen : Geo.P3) (f : Fin 3 → Nat) (ii jj : Fin 3) : ℝ :=
  entryOfG (area (f ii)) (normal (f ii)) K (nuVector fc cen f jj) (subcellT fc cen f)

/-- What the transmissibility code reads about one subcell of a vertex: `subc_Gmatrix[icell][isub]`,
`faces->is_internal`, `subcells->is_face_up`, the position of the pair of cells sharing the face in
`cell_up2dw` (internal faces), the boundary number `-cell_id-1` of the face (boundary faces) and
the face identifier.
The three subcell faces are numbered 0, 1, 2. -/
structure Sub where
  G : Nat → Nat → ℝ
  internal : Nat → Bool
  up : Nat → Bool
  link : Nat → Nat
  bnd : Nat → Nat
  face : Nat → Nat

/-- A vertex: its cells (`num_internal_cells`) and their subcells, `num_faces`,
`num_boundary_faces`, the number of internal faces among its faces, its face list before the
numbering, and which kind of boundary
condition `mpfao->bc_type` is (one for the whole mesh). -/
structure Vtx where
  npcen : Nat
  sub : Nat → Sub
  nFaces : Nat
  nBnd : Nat
  nIntFaces : Nat
  ids0 : Nat → Nat
  dirichlet : Bool

/-! ### Numbering -/

/-- One iteration of the first loop of `SetupUpwindFacesForSubcell`, tdymeshplex.c 1572-1617.
State: `boundary_cell_count` and `face_unknown_idx` as written so far for face `f` of subcell `i`.
The loop also sets `is_face_up`, which is input here. -/
def unkStep (v : Vtx) (i f : Nat) (st : Nat × (Nat → Nat → Nat)) : Nat × (Nat → Nat → Nat) :=
  if (v.sub i).internal f then
    (st.1, fun a b => if a = i ∧ b = f then (v.sub i).link f else st.2 a b)
  else
    (st.1 + 1, fun a b => if a = i ∧ b = f then st.1 + v.nIntFaces else st.2 a b)

/-- First loop of `SetupUpwindFacesForSubcell`, tdymeshplex.c 1557-1619: `face_unknown_idx`. -/
def numberUnknowns (v : Vtx) : Nat × (Nat → Nat → Nat) :=
  forN v.npcen (fun i st => forN 3 (fun f st => unkStep v i f st) st) (0, fun _ _ => 0)

/-- `face_unknown_idx` -/
def unk (v : Vtx) (i f : Nat) : Nat := (numberUnknowns v).2 i f

/-- tdympfao.c 985-993 -/
def countStep (v : Vtx) (i f : Nat) (st : Nat × Nat) : Nat × Nat :=
  if (v.sub i).internal f then st
  else if (v.sub i).up f then (st.1 + 1, st.2) else (st.1, st.2 + 1)

/-- `DetermineNumberOfUpAndDownBoundaryFaces`, tdympfao.c 956-998; the same loop is in
`SetupUpwindFacesForSubcell`, tdymeshplex.c 1623-1649. -/
def countBnd (v : Vtx) : Nat × Nat :=
  forN v.npcen (fun i st => forN 3 (fun f st => countStep v i f st) st) (0, 0)

/-- State of the loop that numbers the fluxes: `nup_bnd_flux`, `ndn_bnd_flux`, `face_flux_idx` and
the reordered `vertex_face_ids`. -/
structure FluxNum where
  nUp : Nat
  nDn : Nat
  idx : Nat → Nat → Nat
  ids : Nat → Nat

/-- One iteration of the last loop of `SetupUpwindFacesForSubcell`, tdymeshplex.c 1674-1692. -/
def fluxStep (v : Vtx) (i f : Nat) (st : FluxNum) : FluxNum :=
  if (v.sub i).internal f then
    ⟨st.nUp, st.nDn, fun a b => if a = i ∧ b = f then unk v i f else st.idx a b,
      wr st.ids (unk v i f) ((v.sub i).face f)⟩
  else if (v.sub i).up f then
    ⟨st.nUp + 1, st.nDn, fun a b => if a = i ∧ b = f then v.nIntFaces + st.nUp else st.idx a b,
      wr st.ids (v.nIntFaces + st.nUp) ((v.sub i).face f)⟩
  else
    ⟨st.nUp, st.nDn + 1, fun a b => if a = i ∧ b = f then v.nIntFaces + st.nDn else st.idx a b,
      wr st.ids (v.nIntFaces + (countBnd v).1 + st.nDn) ((v.sub i).face f)⟩

/-- Last loop of `SetupUpwindFacesForSubcell`, tdymeshplex.c 1653-1694: `face_flux_idx` and
`vertex_face_ids`, starting from the face list `ids0` of the vertex. -/
def numberFluxes (v : Vtx) (ids0 : Nat → Nat) : FluxNum :=
  forN v.npcen (fun i st => forN 3 (fun f st => fluxStep v i f st) st)
    ⟨0, 0, fun _ _ => 0, ids0⟩

/-- `face_flux_idx` -/
def flux (v : Vtx) (i f : Nat) : Nat := (numberFluxes v v.ids0).idx i f

/-- `vertices->face_ids` of the vertex after the numbering: row `r` of `Trans[vertex]` is saved for
this face (tdympfao.c 1455-1458). -/
def vertexFaces (v : Vtx) : Nat → Nat := (numberFluxes v v.ids0).ids

/-- tdympfao.c 1437-1450 -/
def gatherStep (v : Vtx) (i f : Nat) (st : Nat × (Nat → Nat)) : Nat × (Nat → Nat) :=
  if (v.sub i).internal f then st else (st.1 + 1, wr st.2 st.1 ((v.sub i).bnd f))

/-- Gathering the boundary numbers, tdympfao.c 1424-1452: `numBnd` and `idxBnd`. -/
def gatherBnd (v : Vtx) : Nat × (Nat → Nat) :=
  forN v.npcen (fun i st => forN 3 (fun f st => gatherStep v i f st) st) (0, fun _ => 0)

/-- `idxBnd` -/
def idxBnd (v : Vtx) : Nat → Nat := (gatherBnd v).2

/-! ### The matrices C and F -/

/-- `M[i][j] = x` -/
def wr2 (M : Nat → Nat → ℝ) (i j : Nat) (x : ℝ) : Nat → Nat → ℝ :=
  fun a b => if a = i ∧ b = j then x else M a b

/-- The four matrices filled by `ComputeCandFmatrix`. -/
structure CF where
  Cup : Nat → Nat → ℝ
  Cdn : Nat → Nat → ℝ
  Fup : Nat → Nat → ℝ
  Fdn : Nat → Nat → ℝ

/-- One iteration of the inner loop of `ComputeCandFmatrix`, tdympfao.c 1044-1069. -/
def cfStep (v : Vtx) (i f : Nat) (st : CF) : CF :=
  let G := (v.sub i).G
  let r := flux v i f
  if (v.sub i).up f then
    { st with
      Cup := wr2 (wr2 (wr2 st.Cup r (unk v i 0) (-G f 0)) r (unk v i 1) (-G f 1))
               r (unk v i 2) (-G f 2),
      Fup := wr2 st.Fup r i (-G f 0 - G f 1 - G f 2) }
  else
    { st with
      Cdn := wr2 (wr2 (wr2 st.Cdn r (unk v i 0) (-G f 0)) r (unk v i 1) (-G f 1))
               r (unk v i 2) (-G f 2),
      Fdn := wr2 st.Fdn r i (-G f 0 - G f 1 - G f 2) }

/-- `ComputeCandFmatrix`, tdympfao.c 1000-1076.  The buffers are zeroed by the allocation. -/
def candF (v : Vtx) : CF :=
  forN v.npcen (fun i st => forN 3 (fun f st => cfStep v i f st) st)
    ⟨fun _ _ => 0, fun _ _ => 0, fun _ _ => 0, fun _ _ => 0⟩

/-! ### Sizes, tdympfao.c 1153-1201 -/

def nDirUp (v : Vtx) : Nat := if v.dirichlet then (countBnd v).1 else 0
def nDirDn (v : Vtx) : Nat := if v.dirichlet then (countBnd v).2 else 0
/-- `npitf_dir_bc_all` -/
def nDir (v : Vtx) : Nat := if v.dirichlet then v.nBnd else 0
def nNeuUp (v : Vtx) : Nat := if v.dirichlet then 0 else (countBnd v).1
def nNeuDn (v : Vtx) : Nat := if v.dirichlet then 0 else (countBnd v).2
/-- `npitf_neu_bc_all` = `nflux_neu_bc_all` -/
def nNeu (v : Vtx) : Nat := if v.dirichlet then 0 else v.nBnd
/-- `nflux_in` = `npitf_in` -/
def nIn (v : Vtx) : Nat :=
  v.nFaces - (nDirUp v + nDirDn v) - (nNeuUp v + nNeuDn v)

/-! ### The local system, tdympfao.c 1246-1347 -/

/-- Column of `C` for column `c` of the local system: the internal interfaces, then the Neumann
interfaces (`Cxx_11/13`, `ExtractsubCMatrices`, 890-928). -/
def colA (v : Vtx) (c : Nat) : Nat := if c < nIn v then c else nIn v + nDir v + (c - nIn v)

/-- Entry of `AINBCxINBC`. -/
def aEntry (v : Vtx) (r c : Nat) : ℝ :=
  if r < nIn v then -(candF v).Cup r (colA v c) + (candF v).Cdn r (colA v c)
  else if r < nIn v + nNeuUp v then
    -(candF v).Cup (nIn v + nDirUp v + (r - nIn v)) (colA v c)
  else -(candF v).Cdn (nIn v + nDirDn v + (r - nIn v - nNeuUp v)) (colA v c)

/-- Entry of `BINBCxCDBC`: columns of the cells, then of the Dirichlet interfaces. -/
def bEntry (v : Vtx) (r j : Nat) : ℝ :=
  if j < v.npcen then
    if r < nIn v then -(candF v).Fup r j + (candF v).Fdn r j
    else if r < nIn v + nNeuUp v then -(candF v).Fup (nIn v + nDirUp v + (r - nIn v)) j
    else -(candF v).Fdn (nIn v + nDirDn v + (r - nIn v - nNeuUp v)) j
  else
    if r < nIn v then
      (candF v).Cup r (nIn v + (j - v.npcen)) - (candF v).Cdn r (nIn v + (j - v.npcen))
    else if r < nIn v + nNeuUp v then
      -(candF v).Cup (nIn v + nDirUp v + (r - nIn v)) (nIn v + (j - v.npcen))
    else -(candF v).Cdn (nIn v + nDirDn v + (r - nIn v - nNeuUp v)) (nIn v + (j - v.npcen))

/-- Order of the local system. -/
def nSys (v : Vtx) : Nat := nIn v + nNeu v

def aMat (v : Vtx) : Matrix (Fin (nSys v)) (Fin (nSys v)) ℝ := fun r c => aEntry v r c

def bMat (v : Vtx) : Matrix (Fin (nSys v)) (Fin (v.npcen + nDir v)) ℝ := fun r j => bEntry v r j

open Classical in
/-- `ComputeAinvB`, tdympfao.c 1078-1107: LU factorisation and back substitution, which fail
exactly on singular matrices. -/
noncomputable def ainvB (v : Vtx) : Option (Matrix (Fin (nSys v)) (Fin (v.npcen + nDir v)) ℝ) :=
  if (aMat v).det = 0 then none else some ((aMat v)⁻¹ * bMat v)

/-- Row `i`, column `j` of `Trans[vertex]`, tdympfao.c 1363-1422, from `X = AinvB`: internal fluxes,
then Dirichlet boundary fluxes with the cell on the up side, then those with the cell on the down
side. -/
def transEntry (v : Vtx) (X : Matrix (Fin (nSys v)) (Fin (v.npcen + nDir v)) ℝ)
    (i : Nat) (j : Fin (v.npcen + nDir v)) : ℝ :=
  if i < nIn v then
    (∑ c : Fin (nSys v), (candF v).Cup i (colA v c) * X c j) +
      (if j.1 < v.npcen then -(candF v).Fup i j else (candF v).Cup i (nIn v + (j - v.npcen)))
  else if i < nIn v + nDirUp v then
    (∑ c : Fin (nSys v), (candF v).Cup i (colA v c) * X c j) +
      (if j.1 < v.npcen then -(candF v).Fup i j else (candF v).Cup i (nIn v + (j - v.npcen)))
  else
    (∑ c : Fin (nSys v), (candF v).Cdn (i - nDirUp v) (colA v c) * X c j) +
      (if j.1 < v.npcen then -(candF v).Fdn (i - nDirUp v) j
       else (candF v).Cdn (i - nDirUp v) (nIn v + (j - v.npcen)))

/-- `ComputeTransmissibilityMatrix_ForNonCornerVertex`, tdympfao.c 1126-1422; `none` when the local
system is singular and the call fails. -/
noncomputable def trans (v : Vtx) : Option (Nat → Fin (v.npcen + nDir v) → ℝ) :=
  (ainvB v).map (transEntry v)

/-- Row times the values the columns stand for: the cell pressures `u` and the boundary pressures
`pb`, indexed by boundary number; the columns are the cells of the vertex and the entries of
`idxBnd` (tdympfao.c 1454-1471; `MatMult` with the pressure vector in `TDyMPFAOIFunction`). -/
def transTimes (v : Vtx) (T : Nat → Fin (v.npcen + nDir v) → ℝ) (u : Nat → ℝ) (pb : Nat → ℝ)
    (i : Nat) : ℝ :=
  ∑ j : Fin (v.npcen + nDir v),
    T i j * (if j.1 < v.npcen then u j else pb (idxBnd v (j - v.npcen)))

end TDy.Mpfao
