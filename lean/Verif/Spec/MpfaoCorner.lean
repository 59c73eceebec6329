import Verif.Model.MpfaoCorner
import Verif.Spec.MpfaoFlux

/-!
# Vocabulary for corner vertices and connected regions
-/

namespace TDy.Mpfao.Spec

open TDy.Mpfao

noncomputable section

/-- A corner vertex: three boundary faces with different boundary numbers.  The vertex lists the
same faces as the subcell, in an order of its own: its `i`-th face is the subcell's `σ i`-th. -/
structure CornerOk (c : Corner) (σ : Nat → Nat) : Prop where
  face_inj : ∀ k < 3, ∀ k' < 3, c.face k = c.face k' → k = k'
  bnd_inj : ∀ k < 3, ∀ k' < 3, c.fbnd (c.face k) = c.fbnd (c.face k') → k = k'
  boundary : ∀ k < 3, c.internal (c.face k) = false
  order : ∀ i < 3, c.vface i = c.face (σ i)
  lt : ∀ i < 3, σ i < 3
  inj : ∀ i < 3, ∀ i' < 3, σ i = σ i' → i = i'

/-- The flux through the `f`-th face of the subcell when the cell has pressure `u` and boundary
face number `b` has pressure `pb b`. -/
def cornerFlux (c : Corner) (u : ℝ) (pb : Nat → ℝ) (f : Nat) : ℝ :=
  ∑ k ∈ Finset.range 3, c.G f k*(u - pb (c.fbnd (c.face k)))

/-- `Trans` as the rest of the code reads it: column 0 belongs to the cell, column `k+1` to the
`k`-th face of the vertex. -/
def readRow (c : Corner) (T : Nat → Nat → ℝ) (u : ℝ) (pb : Nat → ℝ) (i : Nat) : ℝ :=
  T i 0*u + ∑ k ∈ Finset.range 3, T i (k + 1)*pb (c.fbnd (c.vface k))

/-- Face `f` lies between two cells of different regions. -/
def Separating (c : Ctx) (region : Nat → ℤ) (f : MFace) : Prop :=
  0 ≤ f.up ∧ 0 ≤ f.dn ∧ region f.up.toNat ≠ region f.dn.toNat

/-- Every subface of the mesh belongs to one of the faces and is one of at most four. -/
structure SlotsOk (c : Ctx) (numFaces : Nat) : Prop where
  face : ∀ v i, IsSubface c v i → (c.vert v).face i < numFaces
  sub : ∀ v i, IsSubface c v i → (c.vert v).subface i < 4

end

end TDy.Mpfao.Spec
