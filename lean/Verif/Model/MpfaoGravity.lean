import Verif.Model.MpfaoFlux
import Verif.Model.Geometry

/-!
# Model of the face permeability and of the gravity coefficients of the MPFA-O method

src/fv/mpfao/tdympfao.c 1859-2273, the lookup of a subface in src/fv/share/tdymeshplex.c 502-536 and
the tables it searches, src/fv/share/tdymeshplex.c 2829-2943 (`SetupSubcells`).

All cells have the same number of vertices (`TDyMeshCreateFromPlex` allocates for one cell type).
-/

namespace TDy.Mpfao

noncomputable section

/-- What these functions read. -/
structure GravCtx where
  numVertices : Nat
  numCells : Nat
  /-- `vertices->is_local` -/
  vLocal : Nat → Bool
  /-- `vertices->num_faces`, `TDyMeshGetVertexFaces`, `TDyMeshGetVertexSubfaces` -/
  nFaces : Nat → Nat
  vFace : Nat → Nat → Nat
  vSub : Nat → Nat → Nat
  /-- `faces->cell_ids`, `faces->is_local` -/
  face : Nat → MFace
  cellCen : Nat → Geo.P3
  faceCen : Nat → Geo.P3
  normal : Nat → Geo.P3
  /-- `faces->area`, and the number of its vertices -/
  area : Nat → ℝ
  faceVerts : Nat → Nat
  /-- `cells->num_subcells` and number of vertices of a cell -/
  nSub : Nat
  /-- `TDyMeshGetCellVertices` -/
  cellVertex : Nat → Nat → Nat
  /-- the three faces of a cell at its `isub`-th vertex -/
  cellFace : Nat → Nat → Nat → Nat
  /-- `mpfao->K0`: nine entries per cell -/
  K0 : Nat → ℝ
  gravity : Geo.P3
  /-- `bc_type == NEUMANN_BC` -/
  neumann : Bool
  /-- `gmatrix_method == MPFAO_GMATRIX_TPF` -/
  tpf : Bool

/-! ## Permeability of a face -/

/-- tdympfao.c 1888-1904: the point on one side of a face, the centroid of the cell or of the
boundary face. -/
def sidePoint (m : GravCtx) (f : Nat) (id : ℤ) : Geo.P3 :=
  if 0 ≤ id then m.cellCen id.toNat else m.faceCen f

/-- tdympfao.c 1869-1908, `ComputeUpDownUnitVector`; a face without cells is an error in the code
(`hasCell`). -/
def upDown (m : GravCtx) (f : Nat) : Geo.P3 :=
  Geo.unitJoin (sidePoint m f (m.face f).up) (sidePoint m f (m.face f).dn)

/-- tdympfao.c 1882-1884, 1932-1934, 1982-1984 -/
def hasCell (m : GravCtx) (f : Nat) : Bool := 0 ≤ (m.face f).up || 0 ≤ (m.face f).dn

/-- tdympfao.c 1941-1955: distance of one side from the face centroid, 0 for a boundary face. -/
def sideDist (m : GravCtx) (f : Nat) (id : ℤ) : ℝ :=
  if 0 ≤ id then Geo.norm (Geo.join (m.cellCen id.toNat) (m.faceCen f)) else 0.0

/-- tdympfao.c 1986-1996: the cell whose tensor is taken for a side: the other one if there is none. -/
def permCell (id other : ℤ) : Nat := if 0 ≤ id then id.toNat else other.toNat

/-- tdympfao.c 1967-2000, `ExtractUpAndDownPermeabilityTensors`: entry `mm*3+kk` is entry `kk*3+mm`
of the cell. -/
def extractK (K0 : Nat → ℝ) (cell : Nat) (n : Nat) : ℝ := K0 (cell*9 + (n%3)*3 + n/3)

/-- tdympfao.c 2030, 2090: weight of the up side. -/
def wtUp (m : GravCtx) (f : Nat) : ℝ :=
  sideDist m f (m.face f).up / (sideDist m f (m.face f).up + sideDist m f (m.face f).dn)

/-- tdympfao.c 2036-2042: weighted mean of the inverses. -/
def faceInv (m : GravCtx) (f : Nat) (n : Nat) : ℝ :=
  wtUp m f * (Geo.computeInverse (extractK m.K0 (permCell (m.face f).up (m.face f).dn))).1 n +
    (1.0 - wtUp m f) *
      (Geo.computeInverse (extractK m.K0 (permCell (m.face f).dn (m.face f).up))).1 n

/-- tdympfao.c 2046-2052: entries that are negative or small become 0. -/
def clipK (a : Nat → ℝ) (n : Nat) : ℝ := if a n < 0.0 ∨ |a n| < Geo.machineEps then 0.0 else a n

/-- tdympfao.c 2008-2054, `ComputeFacePermeabilityTensor`. -/
def faceTensor (m : GravCtx) (f : Nat) : Nat → ℝ := clipK (Geo.computeInverse (faceInv m f)).1

/-- tdympfao.c 2077-2085: scalar permeability along `u`. -/
def dirPerm (K : Nat → ℝ) (u : Geo.P3) : ℝ :=
  1.0 / (0.0 + u.x ^ (2:ℕ)/K 0 + u.y ^ (2:ℕ)/K 4 + u.z ^ (2:ℕ)/K 8)

/-- tdympfao.c 2067-2095, `ComputeFacePermeabilityValueTPF`. -/
def permTPF (m : GravCtx) (f : Nat) : ℝ :=
  let u := upDown m f
  let Ku := dirPerm (extractK m.K0 (permCell (m.face f).up (m.face f).dn)) u
  let Kd := dirPerm (extractK m.K0 (permCell (m.face f).dn (m.face f).up)) u
  (Ku*Kd)/(wtUp m f*Kd + (1.0 - wtUp m f)*Ku)

/-- tdympfao.c 2127-2134: `K u`. -/
def applyK (K : Nat → ℝ) (u : Geo.P3) : Geo.P3 :=
  ⟨0.0 + K 0*u.x + K 1*u.y + K 2*u.z, 0.0 + K 3*u.x + K 4*u.y + K 5*u.z,
   0.0 + K 6*u.x + K 7*u.y + K 8*u.z⟩

/-- tdympfao.c 2113-2143, `ComputeFacePermeabilityValueMPFAO`. -/
def permMPFAO (m : GravCtx) (f : Nat) : ℝ :=
  Geo.dot (m.normal f) (applyK (faceTensor m f) (upDown m f))

/-! ## The area of a subface -/

/-- tdymeshplex.c 2855-2876, 2919-2943, tdymesh.c 131-137: position of face `d` of subcell `isub` of
a cell in the tables of the subcells. -/
def flat (m : GravCtx) (icell isub d : Nat) : Nat := (icell*m.nSub + isub)*3 + d

/-- One of the tables of the subcells: `v icell isub d` for every subface, -1 or 0 (`init`) before. -/
def subTable {α : Type} (m : GravCtx) (init : α) (v : Nat → Nat → Nat → α) : Nat → α :=
  forN m.numCells (fun icell a =>
    forN m.nSub (fun isub a =>
      forN 3 (fun d a => wr a (flat m icell isub d) (v icell isub d)) a) a) (fun _ => init)

/-- `subcells->face_ids`, tdymeshplex.c 2873-2874 -/
def faceIds (m : GravCtx) : Nat → ℤ := subTable m (-1) (fun c s d => (m.cellFace c s d : ℤ))

/-- `subcells->vertex_ids`, tdymeshplex.c 2875 -/
def vertexIds (m : GravCtx) : Nat → ℤ := subTable m (-1) (fun c s _ => (m.cellVertex c s : ℤ))

/-- `subcells->face_area`, tdymeshplex.c 2937-2941 -/
def subArea (m : GravCtx) : Nat → ℝ :=
  subTable m 0 (fun c s d => m.area (m.cellFace c s d) / m.faceVerts (m.cellFace c s d))

/-- tdymeshplex.c 502-536, `TDyMeshGetSubcellIDGivenCellIdVertexIdFaceId`: the first entry of the
cell with this vertex and face; `none` is the error. -/
def findSub (m : GravCtx) (cell vertex face : Nat) : Option Nat :=
  ((List.range (m.nSub*3)).find? (fun k =>
    faceIds m (cell*(m.nSub*3) + k) == face && vertexIds m (cell*(m.nSub*3) + k) == vertex)).map
    (fun k => cell*(m.nSub*3) + k)

/-! ## Gravity coefficients -/

/-- tdympfao_utils.c 11-22, `ComputeGtimesZ`. -/
def gtimesZ (g X : Geo.P3) : ℝ := 0.0 + |g.x| * X.x + |g.y| * X.y + |g.z| * X.z

/-- tdympfao.c 2235-2258: `GravDis` of face `f` for a subface of area `a`. -/
def gravDis (m : GravCtx) (f : Nat) (a : ℝ) : ℝ :=
  if m.tpf then
    a*Geo.dot (m.normal f) (upDown m f) * permTPF m f * gtimesZ m.gravity (upDown m f)
  else a * permMPFAO m f * gtimesZ m.gravity (upDown m f)

/-- tdympfao.c 2206-2264: one face of one vertex; `none` is an error return. -/
def gravStep (m : GravCtx) (v i : Nat) (g : Nat → ℝ) : Option (Nat → ℝ) :=
  let f := m.vFace v i
  if !(m.face f).isLocal then some g
  else if m.neumann ∧ ((m.face f).up < 0 ∨ (m.face f).dn < 0) then some g
  else
    let cell := if (m.face f).up < 0 then (m.face f).dn.toNat else (m.face f).up.toNat
    (findSub m cell v f).bind fun k =>
      if hasCell m f then some (wr g (f*4 + m.vSub v i) (gravDis m f (subArea m k))) else none

/-- tdympfao.c 2169-2273, `ComputeGravityDiscretization`. -/
def gravity (m : GravCtx) (g : Nat → ℝ) : Option (Nat → ℝ) :=
  forN m.numVertices (fun v g =>
    if !m.vLocal v then g
    else forN (m.nFaces v) (fun i g => g.bind (gravStep m v i)) g) (some g)

end

end TDy.Mpfao
