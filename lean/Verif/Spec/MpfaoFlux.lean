import Verif.Model.MpfaoFlux
import Verif.Spec.Fvtpf

/-!
# Vocabulary for the properties of the MPFA-O residual

The flux of a subface is positive from the up to the down side of its face.
-/

namespace TDy.Mpfao.Spec

open TDy.Mpfao

noncomputable section

/-- The face of row `i` of vertex `v`. -/
abbrev faceOf (c : Ctx) (v i : Nat) : MFace := c.face ((c.vert v).face i)

/-- Row `i` of vertex `v` exists. -/
def IsSubface (c : Ctx) (v i : Nat) : Prop := v < c.numVertices ∧ i < (c.vert v).nRows

/-- Cell numbers of the faces that occur are cells of the mesh. -/
structure FacesOk (c : Ctx) : Prop where
  up : ∀ v i, IsSubface c v i → (faceOf c v i).up < c.numCells
  dn : ∀ v i, IsSubface c v i → (faceOf c v i).dn < c.numCells

/-- One process that owns the whole mesh. -/
structure OwnsAll (c : Ctx) : Prop where
  vert : ∀ v, (c.vert v).isLocal = true
  face : ∀ f, (c.face f).isLocal = true
  cell : ∀ j, c.isLocal j = true

/-- Mass of water in a cell. -/
def waterMass (c : Ctx) (i : Nat) : ℝ := (c.cells i).rho*(c.por i*(c.cells i).S*c.vol i)

/-- What leaves the mesh through a subface that carries `q`: nothing unless one of the sides is a
boundary. -/
def outflow (f : MFace) (q : ℝ) : ℝ :=
  if 0 ≤ f.up then (if 0 ≤ f.dn then 0 else q) else (if 0 ≤ f.dn then -q else 0)

/-- Sum over all subfaces. -/
def overSubfaces (c : Ctx) (g : Nat → Nat → ℝ) : ℝ :=
  ∑ v ∈ Finset.range c.numVertices, ∑ i ∈ Finset.range (c.vert v).nRows, g v i

/-- What cell `j` loses through its subfaces when row `i` of vertex `v` carries `q v i`. -/
def cellOutflow (c : Ctx) (q : Nat → Nat → ℝ) (j : Nat) : ℝ :=
  overSubfaces c fun v i =>
    (if (faceOf c v i).up = j then q v i else 0) - (if (faceOf c v i).dn = j then q v i else 0)

end

end TDy.Mpfao.Spec
