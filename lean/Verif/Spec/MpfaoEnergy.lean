import Verif.Spec.MpfaoSteady

/-!
# When the face pressures of a vertex are determined, and when the steady system is

Cells are parallelepipeds, every cell has its own positive definite permeability tensor.  The flux
through a subface, seen from the cell, goes against the pressure difference on the whole: that is
what decides whether the face pressures, and then the cell pressures, are determined.
-/

namespace TDy.Mpfao.Spec

open TDy.Mpfao

noncomputable section

/-- The normal of a face points from the cell above to the cell below: `1` if it points out of the
subcell, `-1` if into it. -/
def outward (s : Sub) (f : Nat) : ℝ := if s.up f then 1 else -1

/-- `gᵀ K g > 0` for every direction `g`. -/
def PositiveDefinite (K : Fin 3 → Fin 3 → ℝ) : Prop :=
  ∀ g : Geo.P3, g ≠ ⟨0, 0, 0⟩ → 0 <
    g.x*(K 0 0*g.x + K 0 1*g.y + K 0 2*g.z) + g.y*(K 1 0*g.x + K 1 1*g.y + K 1 2*g.z) +
      g.z*(K 2 0*g.x + K 2 1*g.y + K 2 2*g.z)

/-- The subcell belongs to a cell that is a parallelepiped with centre `cen` whose three faces at the
vertex have the centres `fc`: a quarter of each of them is spanned by the vectors from the centre of
the cell to the centres of the other two faces.  The order of the faces is the one the mesh chooses
(negative orientation, see `orient_neg`). -/
structure Parallelepiped (area : Nat → ℝ) (normal fc : Nat → Geo.P3) (cen : Geo.P3) (s : Sub) :
    Prop where
  oriented : Geo.dot (Geo.cross (Geo.join cen (fc (s.face 0))) (Geo.join cen (fc (s.face 1))))
      (Geo.join cen (fc (s.face 2))) < 0
  quarter : ∀ f < 3, ∀ g : Geo.P3,
    outward s f*(area (s.face f)*Geo.dot (normal (s.face f)) g) =
      -Geo.dot (Geo.cross (Geo.join cen (fc (s.face ((f + 1) % 3))))
        (Geo.join cen (fc (s.face ((f + 2) % 3))))) g

/-- What the transmissibilities `T` say flows through face `x`: the row saved for it. -/
def throughFace (v : Vtx) (T : Nat → Fin (v.npcen + nDir v) → ℝ) (u pb : Nat → ℝ) (x : Nat) : ℝ :=
  ∑ r ∈ Finset.range v.nFaces, if vertexFaces v r = x then transTimes v T u pb r else 0

/-- Pressure beyond the boundary face `f` of subcell `s`, zero for an internal face. -/
def beyond (s : Sub) (pb : Nat → ℝ) (f : Nat) : ℝ := if s.internal f then 0 else pb (s.bnd f)

/-- What the fluxes through the faces of the vertex do against the pressures of the cells and, for
prescribed boundary pressures, those on the boundary: flux out of a cell times its pressure, summed
over the sides of all faces. -/
def work (v : Vtx) (T : Nat → Fin (v.npcen + nDir v) → ℝ) (u pb : Nat → ℝ) : ℝ :=
  ∑ i ∈ Finset.range v.npcen, ∑ f ∈ Finset.range 3,
    if (v.sub i).internal f = true ∨ v.dirichlet = true then
      outward (v.sub i) f*((u i - beyond (v.sub i) pb f)*throughFace v T u pb ((v.sub i).face f))
    else 0

/-- The vertex `w` of the mesh is the one described by `v`, with prescribed pressures on the
boundary, and holds the transmissibilities computed for it.  Subcell `i` belongs to the `i`-th cell
of the vertex, on the up or on the down side of its faces; a boundary face has nothing on the other
side. -/
structure SolvedAround (m : Steady) (w : SVert) (v : Vtx) (T : Nat → Fin (v.npcen + nDir v) → ℝ) :
    Prop where
  wf : WellFormed v
  trans : trans v = some T
  dirichlet : v.dirichlet = true
  nCells : w.nCells = v.npcen
  nBnd : w.nBnd = nDir v
  nFaces : w.nFaces = v.nFaces
  face : ∀ r < w.nFaces, w.face r = vertexFaces v r
  T : ∀ i < w.nFaces, ∀ j : Fin (v.npcen + nDir v), w.T i j = T i j
  above : ∀ i f, InRange v i f → (v.sub i).up f = true →
    (m.face ((v.sub i).face f)).up = w.cell i ∧
      ((v.sub i).internal f = false → (m.face ((v.sub i).face f)).dn < 0)
  below : ∀ i f, InRange v i f → (v.sub i).up f = false →
    (m.face ((v.sub i).face f)).dn = w.cell i ∧
      ((v.sub i).internal f = false → (m.face ((v.sub i).face f)).up < 0)

/-- Every subcell belongs to a parallelepiped with a positive definite permeability tensor of its
own. -/
def BoxCells (v : Vtx) : Prop :=
  ∃ (K : Nat → Fin 3 → Fin 3 → ℝ) (area : Nat → ℝ) (normal fc cen : Nat → Geo.P3),
    ∀ i < v.npcen, PositiveDefinite (K i) ∧ Parallelepiped area normal fc (cen i) (v.sub i) ∧
      ∀ ii jj : Fin 3, (v.sub i).G ii jj =
        gMatrix (K i) area normal fc (cen i) (fun m => (v.sub i).face m) ii jj

/-- Every subcell belongs to a parallelepiped with a symmetric permeability tensor of its own. -/
def SymmetricCells (v : Vtx) : Prop :=
  ∃ (K : Nat → Fin 3 → Fin 3 → ℝ) (area : Nat → ℝ) (normal fc cen : Nat → Geo.P3),
    ∀ i < v.npcen, (∀ a b, K i a b = K i b a) ∧ Parallelepiped area normal fc (cen i) (v.sub i) ∧
      ∀ ii jj : Fin 3, (v.sub i).G ii jj =
        gMatrix (K i) area normal fc (cen i) (fun m => (v.sub i).face m) ii jj

/-- The cell has a face with prescribed pressure, or is joined to one that has through faces between
cells, at vertices that are not corners of the domain. -/
inductive Tied (m : Steady) : Nat → Prop
  | up (n i c : Nat) : n < m.numVertices → Regular (m.vert n) → i < (m.vert n).nFaces →
      (m.face ((m.vert n).face i)).up = c → (m.face ((m.vert n).face i)).dn < 0 → Tied m c
  | dn (n i c : Nat) : n < m.numVertices → Regular (m.vert n) → i < (m.vert n).nFaces →
      (m.face ((m.vert n).face i)).dn = c → (m.face ((m.vert n).face i)).up < 0 → Tied m c
  | across (n i c c' : Nat) : n < m.numVertices → Regular (m.vert n) → i < (m.vert n).nFaces →
      (m.face ((m.vert n).face i)).up = c → (m.face ((m.vert n).face i)).dn = c' →
      Tied m c → Tied m c'
  | back (n i c c' : Nat) : n < m.numVertices → Regular (m.vert n) → i < (m.vert n).nFaces →
      (m.face ((m.vert n).face i)).up = c → (m.face ((m.vert n).face i)).dn = c' →
      Tied m c' → Tied m c

/-- What a corner vertex adds to the diagonal of its cell. -/
def cornerDiagonal (m : Steady) (w : SVert) : ℝ :=
  ∑ i ∈ Finset.range 3, (if 0 ≤ (m.face (w.subFace i)).up then -1 else 1)*
    (w.T i 0 + w.T i 1 + w.T i 2)

end

end TDy.Mpfao.Spec
