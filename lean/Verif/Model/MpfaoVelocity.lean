import Verif.Model.MpfaoFlux
import Mathlib.Analysis.Real.Sqrt

/-!
# Model of the velocities recovered from the pressures of the MPFA-O method

src/fv/mpfao/tdympfao_utils.c 103-687.
-/

namespace TDy.Mpfao

noncomputable section

/-- What is read about a vertex. -/
structure VVert where
  isLocal : Bool
  /-- `vertices->num_faces`, `num_boundary_faces`, `num_internal_cells` -/
  nFaces : Nat
  nBnd : Nat
  nCells : Nat
  /-- `vertices->internal_cell_ids`, `vertices->face_ids` -/
  cell : Nat → Nat
  face : Nat → Nat
  /-- `Trans[vertex]` -/
  T : Nat → Nat → ℝ
  /-- `TDyMeshGetSubcellFaces` of the subcell of the `i`-th cell at the vertex -/
  subFace : Nat → Nat → Nat
  /-- `ExtractSubGmatrix` for the subcell of the first cell -/
  G : Nat → Nat → ℝ

/-- What the velocities are recovered from. -/
structure VelIn where
  numVertices : Nat
  numFaces : Nat
  vert : Nat → VVert
  face : Nat → MFace
  /-- `cells->is_local` -/
  isLocal : Nat → Bool
  /-- `faces->is_internal`, `faces->area` -/
  internal : Nat → Bool
  area : Nat → ℝ
  /-- pressure of the cells, `mpfao->rho`, and `ComputeGtimesZ` at the centroids (lines 11-21) -/
  u : Nat → ℝ
  rho : Nat → ℝ
  gz : Nat → ℝ
  /-- the boundary pressure function at the centroid of a face -/
  bndP : Option (Nat → ℝ)
  /-- the boundary velocity function: `vel·normal*face_areas[iface]` for the subface that face `f`
  (last argument) has at a vertex (first) in the subcell of a cell (second) -/
  ref : Option (Nat → ℤ → Nat → ℝ)

/-- `mpfao->vel`, `mpfao->vel_count`, `*vel_error`, `*count` -/
structure VelSt where
  vel : Nat → ℝ
  cnt : Nat → Nat
  err : ℝ
  n : Nat

/-- tdympfao_utils.c 162-163 and 372-373: pressure plus `rho g z` of a cell. -/
def potential (m : VelIn) (c : Nat) : ℝ := m.u c + m.rho c*m.gz c

/-- tdympfao_utils.c 196-208, 381-392, 423-433, 471-481, 509-519, 634-644: a velocity `x` of face `f`
at vertex `v`, compared with the velocity function on the side of cell `c`. -/
def addVel (m : VelIn) (v : Nat) (c : ℤ) (f : Nat) (x : ℝ) (s : VelSt) : VelSt :=
  { vel := wr s.vel f (s.vel f + x)
    cnt := wr s.cnt f (s.cnt f + 1)
    err := match m.ref with
      | none => s.err
      | some r => s.err + (x - r v c f)^2
    n := match m.ref with
      | none => s.n
      | some _ => s.n + 1 }

/-- tdympfao_utils.c 191-195, 369-377: the cell part of row `i`, divided by the area of the face. -/
def cellPart (m : VelIn) (w : VVert) (i : Nat) : ℝ :=
  forN w.nCells (fun k x => x + -w.T i k*potential m (w.cell k)/m.area (w.face i)) 0.0

/-- tdympfao_utils.c 103-216, `TDyMPFAORecoverVelocity_InternalVertices`, one vertex; no test whether
the vertex is local. -/
def velInternal (m : VelIn) (v : Nat) (s : VelSt) : VelSt :=
  let w := m.vert v
  if w.nBnd = 0 then
    forN w.nFaces (fun i s =>
      if !(m.face (w.face i)).isLocal then s
      else addVel m v (m.face (w.face i)).up (w.face i) (cellPart m w i) s) s
  else s

/-- tdympfao_utils.c 327-336: the pressure of boundary face `f` of the `i`-th cell. -/
def bndPressure (m : VelIn) (w : VVert) (i f : Nat) : ℝ :=
  match m.bndP with
  | some p => p f
  | none => potential m (w.cell i)

/-- tdympfao_utils.c 316-339: one face of one subcell. -/
def gatherPStep (m : VelIn) (w : VVert) (i f : Nat) (st : Nat × (Nat → ℝ)) : Nat × (Nat → ℝ) :=
  if m.internal (w.subFace i f) then st
  else (st.1 + 1, wr st.2 st.1 (bndPressure m w i (w.subFace i f)))

/-- tdympfao_utils.c 303-340: `numBoundary` and `pBoundary`. -/
def gatherP (m : VelIn) (w : VVert) : Nat × (Nat → ℝ) :=
  forN w.nCells (fun i st => forN 3 (fun f st => gatherPStep m w i f st) st) (0, fun _ => 0)

/-- tdympfao_utils.c 368-384, 410-426, 458-473, 496-511: the velocity of row `i`. -/
def sharedPart (m : VelIn) (w : VVert) (i : Nat) : ℝ :=
  forN w.nBnd (fun k x =>
    x + -w.T i (k + w.nCells)*(gatherP m w).2 k/m.area (w.face i)) (cellPart m w i)

/-- tdympfao_utils.c 342-435: a face inside the domain; the velocity function is evaluated on the
side of the up cell if that is local. -/
def velInner (m : VelIn) (v i : Nat) (s : VelSt) : VelSt :=
  let w := m.vert v
  let f := m.face (w.face i)
  if !f.isLocal then s
  else addVel m v (if m.isLocal f.up.toNat then f.up else f.dn) (w.face i) (sharedPart m w i) s

/-- tdympfao_utils.c 438-523: a face on the boundary. -/
def velOuter (m : VelIn) (v i : Nat) (s : VelSt) : VelSt :=
  let w := m.vert v
  let f := m.face (w.face i)
  if !f.isLocal then s
  else addVel m v (if f.up > -1 ∧ m.isLocal f.up.toNat = true then f.up else f.dn) (w.face i)
    (sharedPart m w i) s

/-- tdympfao_utils.c 280-524: one vertex of
`TDyMPFAORecoverVelocity_BoundaryVertices_SharedWithInternalVertices`. -/
def velShared (m : VelIn) (v : Nat) (s : VelSt) : VelSt :=
  let w := m.vert v
  if w.nBnd = 0 ∨ w.nCells < 2 ∨ w.isLocal = false then s
  else
    let s := forN (w.nFaces - w.nBnd) (fun i s => velInner m v i s) s
    forN w.nBnd (fun i s => velOuter m v (i + (w.nFaces - w.nBnd)) s) s

/-- tdympfao_utils.c 599-613: the pressure of face `j` of the subcell. -/
def cornerPressure (m : VelIn) (w : VVert) (j : Nat) : ℝ :=
  match m.bndP with
  | some p => p (w.subFace 0 j)
  | none => m.u (w.cell 0)

/-- tdympfao_utils.c 615-633: the velocity of face `i` of the subcell.  The sign is that of face
number `i` of the mesh instead of face `i` of the subcell. -/
def cornerPart (m : VelIn) (w : VVert) (i : Nat) : ℝ :=
  let sign : ℝ := if (m.face i).up > -1 then -1.0 else 1.0
  sign*forN 3 (fun j x =>
    x - sign*w.G i j*(cornerPressure m w j - m.u (w.cell 0))/m.area (w.subFace 0 i)) 0.0

/-- tdympfao_utils.c 574-648: one vertex of
`TDyMPFAORecoverVelocity_BoundaryVertices_NotSharedWithInternalVertices`; no test whether the vertex
is local. -/
def velCorner (m : VelIn) (v : Nat) (s : VelSt) : VelSt :=
  let w := m.vert v
  if w.nBnd = 0 ∨ w.nCells > 1 then s
  else forN 3 (fun i s =>
    if !(m.face (w.subFace 0 i)).isLocal then s
    else addVel m v (w.cell 0) (w.subFace 0 i) (cornerPart m w i) s) s

/-- tdympfao_utils.c 661-675: the part of `TDyMPFAORecoverVelocity` before the sums over the
processes; `vel_count` is not reset. -/
def recoverVelocity (m : VelIn) (s : VelSt) : VelSt :=
  let s : VelSt := ⟨forN m.numFaces (fun f a => wr a f 0.0) s.vel, s.cnt, 0.0, 0⟩
  let s := forN m.numVertices (fun v s => velInternal m v s) s
  let s := forN m.numVertices (fun v s => velCorner m v s) s
  forN m.numVertices (fun v s => velShared m v s) s

/-- tdympfao_utils.c 675-683: what the processes together print, `none` for 0/0. -/
def velReport (errs : List VelSt) : Option ℝ :=
  if (errs.map VelSt.n).sum = 0 then none
  else some (Real.sqrt ((errs.map VelSt.err).sum/((errs.map VelSt.n).sum : ℝ)))

end

end TDy.Mpfao
