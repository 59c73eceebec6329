import Verif.Model.MpfaoSteady
import Verif.Spec.MpfaoTrans
import Verif.Spec.MpfaoCorner
import Mathlib.Algebra.BigOperators.Group.Finset.Basic

/-!
# What the steady system of the MPFA-O method should be
-/

namespace TDy.Mpfao.Spec

open TDy.Mpfao

noncomputable section

/-- `(K u - F)` in row `r`, for `N` unknowns: zero when `u` satisfies the equation. -/
def unbalance (N : Nat) (s : Sys) (u : Nat → ℝ) (r : Nat) : ℝ :=
  ∑ c ∈ Finset.range N, s.K r c*u c - s.F r

/-- Subface number `i` of a vertex: row `i` of the transmissibilities times the cell pressures and
the boundary pressures. -/
def throughSub (m : Steady) (w : SVert) (u : Nat → ℝ) (i : Nat) : ℝ :=
  ∑ k ∈ Finset.range w.nCells, w.T i k*u (m.gid (w.cell k)) +
    ∑ k ∈ Finset.range w.nBnd, w.T i (k + w.nCells)*w.bndP k

/-- Cell `c` owns row `r` on this process. -/
abbrev Owns (m : Steady) (c : Nat) (r : Nat) : Prop := m.isLocal c = true ∧ m.gid c = r

/-- A side of a face that is a cell owning row `r`. -/
abbrev OwnsSide (m : Steady) (c : ℤ) (r : Nat) : Prop := 0 ≤ c ∧ Owns m c.toNat r

/-- What enters row `r` through subface `i`: it leaves the up side and enters the down side. -/
def subfaceIn (m : Steady) (w : SVert) (u : Nat → ℝ) (r i : Nat) : ℝ :=
  (if OwnsSide m (m.face (w.face i)).dn r then throughSub m w u i else 0) -
    if OwnsSide m (m.face (w.face i)).up r then throughSub m w u i else 0

/-- The mesh: subfaces come with the internal ones first; a corner vertex has three boundary faces
of its only cell. -/
structure SteadyOk (m : Steady) (N : Nat) : Prop where
  lt : ∀ v < m.numVertices, ∀ k < (m.vert v).nCells, m.gid ((m.vert v).cell k) < N
  bnd_le : ∀ v < m.numVertices, (m.vert v).nBnd ≤ (m.vert v).nFaces
  inner : ∀ v < m.numVertices, ∀ i < (m.vert v).nFaces - (m.vert v).nBnd,
    0 ≤ (m.face ((m.vert v).face i)).up ∧ 0 ≤ (m.face ((m.vert v).face i)).dn
  corner : ∀ v < m.numVertices, 0 < (m.vert v).nBnd → (m.vert v).nCells ≤ 1 →
    (m.vert v).nCells = 1 ∧ (m.vert v).nBnd = 3 ∧ ∀ k < 3,
      ((m.face ((m.vert v).subFace k)).up = (m.vert v).cell 0 ∧
        (m.face ((m.vert v).subFace k)).dn < 0) ∨
      ((m.face ((m.vert v).subFace k)).dn = (m.vert v).cell 0 ∧
        (m.face ((m.vert v).subFace k)).up < 0)

/-- The vertex is a corner of the domain: it has boundary faces and a single cell. -/
abbrev IsCorner (w : SVert) : Prop := ¬(w.nBnd = 0 ∨ w.nCells > 1)

/-- The vertex contributes through its subfaces: inside the domain, or on its boundary, local and
not a corner. -/
abbrev Regular (w : SVert) : Prop := w.nBnd = 0 ∨ ¬(w.nCells < 2 ∨ w.isLocal = false)

/-- What a corner vertex puts into the row of its cell (see `C99`). -/
def cornerIn (m : Steady) (w : SVert) (u : Nat → ℝ) (i : Nat) : ℝ :=
  let a := (w.T i 0 + w.T i 1 + w.T i 2)*u (m.gid (w.cell 0)) -
    ∑ k ∈ Finset.range 3, w.T i k*w.bndP k
  if 0 ≤ (m.face (w.subFace i)).up then -a else a

/-- A run on one process: every cell is local and has one of the `N` rows. -/
structure OneProcess (m : Steady) (N : Nat) : Prop where
  all : ∀ c, m.isLocal c = true
  row : ∀ c < m.numCells, m.gid c < N
  side : ∀ v < m.numVertices, ∀ i < (m.vert v).nFaces,
    (m.face ((m.vert v).face i)).up < m.numCells ∧ (m.face ((m.vert v).face i)).dn < m.numCells

/-- What all cells together get through subface `i`: nothing, unless one side is outside. -/
def boundaryIn (m : Steady) (w : SVert) (u : Nat → ℝ) (i : Nat) : ℝ :=
  (if 0 ≤ (m.face (w.face i)).dn then throughSub m w u i else 0) -
    if 0 ≤ (m.face (w.face i)).up then throughSub m w u i else 0

/-- The transmissibilities of the vertex were computed for Dirichlet or seepage boundaries. -/
def FromTrans (w : SVert) : Prop :=
  ∃ (v : Vtx) (T : Nat → Fin (v.npcen + nDir v) → ℝ), WellFormed v ∧ trans v = some T ∧
    v.dirichlet = true ∧ w.nCells = v.npcen ∧ w.nBnd = nDir v ∧ w.nFaces = v.nFaces ∧
    ∀ i < w.nFaces, ∀ j : Fin (v.npcen + nDir v), w.T i j = T i j

/-- The transmissibilities of the corner vertex are those of corner `c`, whose cell is on the up
side of the three faces. -/
structure FromCorner (m : Steady) (w : SVert) (c : Corner) (pb : Nat → ℝ) : Prop where
  ok : CornerOk c id
  T : cornerTrans c (fun _ _ => 0) = some w.T
  up : ∀ k < 3, 0 ≤ (m.face (w.subFace k)).up
  bndP : ∀ k < 3, w.bndP k = pb (c.fbnd (c.face k))

/-- The source in row `r`. -/
def sourceIn (m : Steady) (r : Nat) : ℝ :=
  match m.forcing with
  | none => 0
  | some f => ∑ i ∈ Finset.range m.numCells, if Owns m i r then f i*m.vol i else 0

end

end TDy.Mpfao.Spec
