import Verif.Model.MpfaoTrans

/-!
# What the transmissibilities of a vertex should be

A vertex is surrounded by subcells; subface `f` of subcell `i` belongs to face `face i f`.  The
flux through it seen from inside subcell `i` is determined by the cell pressure and by one pressure
per subface, all three subfaces of the subcell contributing (the multi-point flux).
-/

namespace TDy.Mpfao.Spec

/-- `f` is one of the three subfaces of one of the subcells of the vertex. -/
def InRange (v : Vtx) (i f : Nat) : Prop := i < v.npcen ∧ f < 3

/-- What the mesh has to provide around a vertex. -/
structure WellFormed (v : Vtx) : Prop where
  /-- the three subfaces of a subcell belong to three faces -/
  sub_inj : ∀ i f f', InRange v i f → InRange v i f' →
    (v.sub i).face f = (v.sub i).face f' → f = f'
  /-- an internal face has exactly two sides at the vertex, one up and one down -/
  face_inj : ∀ i f i' f', InRange v i f → InRange v i' f' →
    (v.sub i).face f = (v.sub i').face f' → (v.sub i).up f = (v.sub i').up f' → i = i' ∧ f = f'
  paired : ∀ i f, InRange v i f → (v.sub i).internal f = true →
    ∃ i' f', InRange v i' f' ∧ (v.sub i').face f' = (v.sub i).face f ∧
      (v.sub i').up f' = !(v.sub i).up f
  /-- a boundary face has one -/
  bnd_once : ∀ i f i' f', InRange v i f → InRange v i' f' → (v.sub i).internal f = false →
    (v.sub i).face f = (v.sub i').face f' → i = i' ∧ f = f'
  /-- being internal is a matter of the face -/
  internal_face : ∀ i f i' f', InRange v i f → InRange v i' f' →
    (v.sub i).face f = (v.sub i').face f' → (v.sub i).internal f = (v.sub i').internal f'
  /-- the internal faces are numbered from 0 (through the pairs of cells that share them) -/
  link_iff : ∀ i f i' f', InRange v i f → InRange v i' f' → (v.sub i).internal f = true →
    (v.sub i').internal f' = true →
    ((v.sub i).link f = (v.sub i').link f' ↔ (v.sub i).face f = (v.sub i').face f')
  link_lt : ∀ i f, InRange v i f → (v.sub i).internal f = true → (v.sub i).link f < v.nIntFaces
  link_onto : ∀ r, r < v.nIntFaces →
    ∃ i f, InRange v i f ∧ (v.sub i).internal f = true ∧ (v.sub i).link f = r
  /-- the numbers of faces and of boundary faces are right -/
  nBnd_eq : v.nBnd = ∑ i ∈ Finset.range v.npcen, ∑ f ∈ Finset.range 3,
    if (v.sub i).internal f then 0 else 1
  nFaces_eq : v.nFaces = v.nIntFaces + v.nBnd

/-- The flux through subface `f` seen from inside a subcell with cell pressure `u` when face `x` has
pressure `p x`. -/
def oneSided (s : Sub) (u : ℝ) (p : Nat → ℝ) (f : Nat) : ℝ :=
  ∑ k ∈ Finset.range 3, s.G f k * (u - p (s.face k))

/-- The face pressures `p` are right for the cell pressures `u` and the boundary pressures `pb`:
across every internal face the two sides see the same flux; on the boundary the pressure is the
given one (Dirichlet, seepage) or the flux vanishes (Neumann). -/
structure Balanced (v : Vtx) (u pb p : Nat → ℝ) : Prop where
  continuous : ∀ i f i' f', InRange v i f → InRange v i' f' → (v.sub i).internal f = true →
    (v.sub i).face f = (v.sub i').face f' →
    oneSided (v.sub i) (u i) p f = oneSided (v.sub i') (u i') p f'
  boundary : ∀ i f, InRange v i f → (v.sub i).internal f = false →
    if v.dirichlet then p ((v.sub i).face f) = pb ((v.sub i).bnd f)
    else oneSided (v.sub i) (u i) p f = 0

/-- Row `r` of the transmissibilities is saved for face `x`. -/
def RowOf (v : Vtx) (r x : Nat) : Prop := r < v.nFaces ∧ vertexFaces v r = x

end TDy.Mpfao.Spec
