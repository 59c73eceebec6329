import Verif.Model.MpfaoTpf
import Verif.Spec.MpfaoTrans
import Verif.Spec.MpfaoGravity

/-!
# What two-point fluxes should be

Face `f` has the point `a` on its up side and `b` on its down side: cell centroids, or the centroid of
the face itself on the boundary.  The flux through a part `A` of the face is `A (n · e) k (p_b - p_a)/d`
with `e` the direction and `d` the distance from `a` to `b`, and `k` the permeability along `e`.
(As everywhere in these transmissibilities this is `+n · K ∇p`; the flow goes the other way.)
-/

namespace TDy.Mpfao.Spec

noncomputable section

/-- Permeability of cell `c` along the unit vector `e`, from the diagonal of its tensor. -/
def along (m : GravCtx) (c : Nat) (e : Geo.P3) : ℝ :=
  1 / (e.x^2 / tensor m c 0 0 + e.y^2 / tensor m c 1 1 + e.z^2 / tensor m c 2 2)

/-- Subcell `i` of the vertex lies in cell `cell i` of the mesh, and the faces of the subcell are faces
of that cell.  Nothing is said about `up` of the subcell, which need not be the up side of the face. -/
structure Around (v : Vtx) (m : GravCtx) (cell : Nat → Nat) : Prop where
  side : ∀ i f, InRange v i f →
    (m.face ((v.sub i).face f)).up = cell i ∨ (m.face ((v.sub i).face f)).dn = cell i
  bnd : ∀ i f, InRange v i f → (v.sub i).internal f = false →
    (m.face ((v.sub i).face f)).up < 0 ∨ (m.face ((v.sub i).face f)).dn < 0
  /-- a cell has one subcell at the vertex -/
  cells : ∀ i i', i < v.npcen → i' < v.npcen → cell i = cell i' → i = i'
  /-- no cell is its own neighbour -/
  proper : ∀ f, (m.face f).up ≠ (m.face f).dn

/-- The points on the two sides of a face. -/
def pointUp (m : GravCtx) (f : Nat) : Geo.P3 :=
  if 0 ≤ (m.face f).up then m.cellCen (m.face f).up.toNat else m.faceCen f
def pointDn (m : GravCtx) (f : Nat) : Geo.P3 :=
  if 0 ≤ (m.face f).dn then m.cellCen (m.face f).dn.toNat else m.faceCen f

/-- The direction and the distance from the up side to the down side. -/
def direction (m : GravCtx) (f : Nat) : Geo.P3 := Geo.unitJoin (pointUp m f) (pointDn m f)
def distance (m : GravCtx) (f : Nat) : ℝ := Geo.norm (Geo.join (pointUp m f) (pointDn m f))

/-- Every tensor has a positive diagonal, every face has its two points apart and the line between
them crosses it. -/
structure TpfOk (v : Vtx) (m : GravCtx) (cell : Nat → Nat) (area : Nat → ℝ) : Prop where
  pos : ∀ i, i < v.npcen → ∀ k, 0 < tensor m (cell i) k k
  apart : ∀ i f, InRange v i f → pointUp m ((v.sub i).face f) ≠ pointDn m ((v.sub i).face f)
  crosses : ∀ i f, InRange v i f →
    Geo.dot (m.normal ((v.sub i).face f)) (direction m ((v.sub i).face f)) ≠ 0
  area : ∀ i f, InRange v i f → area ((v.sub i).face f) ≠ 0

/-- The matrices of the vertex are those of the two-point option. -/
def FromTpf (v : Vtx) (m : GravCtx) (cell : Nat → Nat) (area : Nat → ℝ) : Prop :=
  ∀ i f k, InRange v i f → k < 3 → (v.sub i).G f k = tpfG m area (cell i) (v.sub i).face f k

/-- The pressures of the cells and the boundary of the vertex are those of the linear function
`g·x + b`. -/
def Linear (v : Vtx) (m : GravCtx) (cell : Nat → Nat) (g : Geo.P3) (b : ℝ) (u pb : Nat → ℝ) : Prop :=
  (∀ i, i < v.npcen → u i = Geo.dot g (m.cellCen (cell i)) + b) ∧
  ∀ i f, InRange v i f → (v.sub i).internal f = false →
    pb ((v.sub i).bnd f) = Geo.dot g (m.faceCen ((v.sub i).face f)) + b

/-- The product of the tensor of cell `c` with a vector. -/
def times (m : GravCtx) (c : Nat) (w : Geo.P3) : Geo.P3 :=
  ⟨tensor m c 0 0*w.x + tensor m c 0 1*w.y + tensor m c 0 2*w.z,
   tensor m c 1 0*w.x + tensor m c 1 1*w.y + tensor m c 1 2*w.z,
   tensor m c 2 0*w.x + tensor m c 2 1*w.y + tensor m c 2 2*w.z⟩

/-- The grid is K-orthogonal at face `f`: `K n` is along the line between the two sides. -/
def KOrthogonal (m : GravCtx) (c f : Nat) : Prop :=
  ∃ l : ℝ, (times m c (m.normal f)).x = l*((pointDn m f).x - (pointUp m f).x) ∧
    (times m c (m.normal f)).y = l*((pointDn m f).y - (pointUp m f).y) ∧
    (times m c (m.normal f)).z = l*((pointDn m f).z - (pointUp m f).z)

/-- All cells of the vertex have the same tensor. -/
def OneTensor (v : Vtx) (m : GravCtx) (cell : Nat → Nat) : Prop :=
  ∀ i, i < v.npcen → tensor m (cell i) = tensor m (cell 0)

/-- Off-diagonal entries vanish. -/
def IsDiagonal (m : GravCtx) (c : Nat) : Prop := ∀ i j, i ≠ j → tensor m c i j = 0

/-- Two halves in series: the permeability `k` with `d/k = (d/2)/a + (d/2)/b`. -/
def series (a b : ℝ) : ℝ := 2/(1/a + 1/b)

/-- Height times gravity. -/
def gz (m : GravCtx) (p : Geo.P3) : ℝ := |m.gravity.x| * p.x + |m.gravity.y| * p.y + |m.gravity.z| * p.z

/-- A fluid of density `ρ` at rest: pressure plus `ρ g z` is the same in the cells and on the
boundary around the vertex. -/
def AtRest (v : Vtx) (m : GravCtx) (cell : Nat → Nat) (ρ p0 : ℝ) (u pb : Nat → ℝ) : Prop :=
  (∀ i, i < v.npcen → u i + ρ*gz m (m.cellCen (cell i)) = p0) ∧
  ∀ i f, InRange v i f → (v.sub i).internal f = false →
    pb ((v.sub i).bnd f) + ρ*gz m (m.faceCen ((v.sub i).face f)) = p0

/-! ### Heat -/

/-- Entries of the thermal conductivity of cell `c`. -/
def kappa (Kappa0 : Nat → ℝ) (c : Nat) (a b : Fin 3) : ℝ := Kappa0 (c*9 + a*3 + b)

/-- The matrices of the vertex are those the two-point option uses for heat; `vol6 i` is six times
the volume of the tetrahedron of subcell `i`. -/
def FromTempTpf (v : Vtx) (m : GravCtx) (Kappa0 : Nat → ℝ) (cell : Nat → Nat) (area vol6 : Nat → ℝ) :
    Prop :=
  ∀ i f k, InRange v i f → k < 3 →
    (v.sub i).G f k = tpfTempG m Kappa0 area (cell i) (v.sub i).face (vol6 i) f k

/-- Component `k` of a point. -/
def comp (p : Geo.P3) : Fin 3 → ℝ := ![p.x, p.y, p.z]

/-- The same conductivity `k` in every direction in cell `c`. -/
def Isotropic (Kappa0 : Nat → ℝ) (c : Nat) (k : ℝ) : Prop :=
  ∀ a b, kappa Kappa0 c a b = if a = b then k else 0

end

end TDy.Mpfao.Spec
