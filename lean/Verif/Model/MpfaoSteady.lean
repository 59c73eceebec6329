import Verif.Model.MpfaoCorner

/-!
# Model of the steady system of the MPFA-O method

src/fv/mpfao/tdympfao_steady.c, and `TDyMPFAOComputeSystem`, src/fv/mpfao/tdympfao.c 2788-2828.
-/

namespace TDy.Mpfao

open TDy.Fvtpf (addAt addMat)

noncomputable section

/-- What is read about a vertex. -/
structure SVert where
  isLocal : Bool
  /-- `vertices->num_faces`, `num_boundary_faces`, `num_internal_cells` -/
  nFaces : Nat
  nBnd : Nat
  nCells : Nat
  /-- `vertices->internal_cell_ids`, `vertices->face_ids` -/
  cell : Nat → Nat
  face : Nat → Nat
  /-- `Trans[vertex]` -/
  T : Nat → Nat → ℝ
  /-- `pBoundary`: pressures of the boundary faces, in the order of the subcells and their faces -/
  bndP : Nat → ℝ
  /-- faces of the subcell of a corner vertex -/
  subFace : Nat → Nat

/-- The mesh, and the forcing (`none` if there is no forcing function). -/
structure Steady where
  numVertices : Nat
  numCells : Nat
  vert : Nat → SVert
  face : Nat → MFace
  isLocal : Nat → Bool
  gid : Nat → Nat
  vol : Nat → ℝ
  forcing : Option (Nat → ℝ)

/-- `Mat K, Vec F` -/
structure Sys where
  K : Nat → Nat → ℝ
  F : Nat → ℝ

/-- `MatSetValue(K, row, col, value, ADD_VALUES)` -/
def Sys.addK (s : Sys) (r c : Nat) (v : ℝ) : Sys := ⟨addMat s.K r c v, s.F⟩

/-- `VecSetValue(F, row, value, ADD_VALUES)` -/
def Sys.addF (s : Sys) (r : Nat) (v : ℝ) : Sys := ⟨s.K, addAt s.F r v⟩

/-- tdympfao_steady.c 45-73: one vertex of `TDyMPFAOComputeSystem_InternalVertices`; no test whether
the vertex is local. -/
def steadyInternal (m : Steady) (w : SVert) (s : Sys) : Sys :=
  if w.nBnd = 0 then
    forN w.nFaces (fun irow s =>
      forN w.nCells (fun icol s =>
        let f := m.face (w.face irow)
        let value := -w.T irow icol
        let s := if m.isLocal f.up.toNat then
          s.addK (m.gid f.up.toNat) (m.gid (w.cell icol)) value else s
        if m.isLocal f.dn.toNat then
          s.addK (m.gid f.dn.toNat) (m.gid (w.cell icol)) (-value) else s) s) s
  else s

/-- tdympfao_steady.c 200-214 and 248-262: entries of row `irow` for the up cell `c`. -/
def sharedUp (m : Steady) (w : SVert) (irow c : Nat) (s : Sys) : Sys :=
  let s := forN w.nCells (fun icol s =>
    s.addK (m.gid c) (m.gid (w.cell icol)) (-w.T irow icol)) s
  forN w.nBnd (fun icol s => s.addF (m.gid c) (-(-w.T irow (icol + w.nCells)*w.bndP icol))) s

/-- tdympfao_steady.c 216-232 and 264-279: entries of row `irow` for the down cell `c`. -/
def sharedDn (m : Steady) (w : SVert) (irow c : Nat) (s : Sys) : Sys :=
  let s := forN w.nCells (fun icol s =>
    s.addK (m.gid c) (m.gid (w.cell icol)) (-(-w.T irow icol))) s
  forN w.nBnd (fun icol s => s.addF (m.gid c) (-w.T irow (icol + w.nCells)*w.bndP icol)) s

/-- tdympfao_steady.c 190-233: an internal face of a boundary vertex. -/
def sharedInner (m : Steady) (w : SVert) (irow : Nat) (s : Sys) : Sys :=
  let f := m.face (w.face irow)
  let s := if m.isLocal f.up.toNat then sharedUp m w irow f.up.toNat s else s
  if m.isLocal f.dn.toNat then sharedDn m w irow f.dn.toNat s else s

/-- tdympfao_steady.c 235-281: a boundary face of a boundary vertex. -/
def sharedOuter (m : Steady) (w : SVert) (irow : Nat) (s : Sys) : Sys :=
  let f := m.face (w.face irow)
  let s := if 0 ≤ f.up ∧ m.isLocal f.up.toNat = true then sharedUp m w irow f.up.toNat s else s
  if 0 ≤ f.dn ∧ m.isLocal f.dn.toNat = true then sharedDn m w irow f.dn.toNat s else s

/-- tdympfao_steady.c 138-282: one vertex of
`TDyMPFAOComputeSystem_BoundaryVertices_SharedWithInternalVertices`. -/
def steadyShared (m : Steady) (w : SVert) (s : Sys) : Sys :=
  if w.nBnd = 0 ∨ w.nCells < 2 ∨ w.isLocal = false then s
  else
    let s := forN (w.nFaces - w.nBnd) (fun irow s => sharedInner m w irow s) s
    forN w.nBnd (fun irow s => sharedOuter m w (irow + (w.nFaces - w.nBnd)) s) s

/-- tdympfao_steady.c 380-393: `value` for face `iface` of the subcell. -/
def cornerValue (m : Steady) (w : SVert) (iface : Nat) : ℝ :=
  let sign : ℝ := if (m.face (w.subFace iface)).up > -1 then -1.0 else 1.0
  0.0 + sign*(-w.T iface 0) + sign*(-w.T iface 1) + sign*(-w.T iface 2)

/-- tdympfao_steady.c 395-399 -/
def cornerK (m : Steady) (w : SVert) (iface : Nat) (s : Sys) : Sys :=
  if m.isLocal (w.cell 0) then
    s.addK (m.gid (w.cell 0)) (m.gid (w.cell 0)) (-cornerValue m w iface) else s

/-- tdympfao_steady.c 401-427 -/
def cornerF (m : Steady) (w : SVert) (iface : Nat) (s : Sys) : Sys :=
  let f := m.face (w.subFace iface)
  let s := if 0 ≤ f.up ∧ m.isLocal f.up.toNat = true then
    forN w.nBnd (fun icol s => s.addF (m.gid f.up.toNat) (-w.T iface icol*w.bndP icol)) s else s
  if 0 ≤ f.dn ∧ m.isLocal f.dn.toNat = true then
    forN w.nBnd (fun icol s => s.addF (m.gid f.dn.toNat) (-(-w.T iface icol*w.bndP icol))) s else s

/-- tdympfao_steady.c 339-428: one vertex of
`TDyMPFAOComputeSystem_BoundaryVertices_NotSharedWithInternalVertices`. -/
def steadyCorner (m : Steady) (w : SVert) (s : Sys) : Sys :=
  if w.nBnd = 0 ∨ w.nCells > 1 then s
  else
    let s := forN 3 (fun iface s => cornerK m w iface s) s
    forN 3 (fun iface s => cornerF m w iface s) s

/-- tdympfao.c 2809-2820 -/
def steadyForcing (m : Steady) (s : Sys) : Sys :=
  match m.forcing with
  | none => s
  | some f => forN m.numCells (fun i s =>
      if m.isLocal i then s.addF (m.gid i) (f i*m.vol i) else s) s

/-- tdympfao.c 2788-2828, `TDyMPFAOComputeSystem`: the matrix is zeroed first, the vector is not. -/
def computeSystem (m : Steady) (s : Sys) : Sys :=
  let s : Sys := ⟨fun _ _ => 0, s.F⟩
  let s := forN m.numVertices (fun v s => steadyInternal m (m.vert v) s) s
  let s := forN m.numVertices (fun v s => steadyShared m (m.vert v) s) s
  let s := forN m.numVertices (fun v s => steadyCorner m (m.vert v) s) s
  steadyForcing m s

end

end TDy.Mpfao
