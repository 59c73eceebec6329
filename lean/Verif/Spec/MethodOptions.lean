import Verif.Model.MethodOptions

/-! # Specification: types of boundary faces, settings of methods -/

namespace TDy.Fvtpf.Spec

open TDy.Geo

/-- Face `i` is a face of the domain boundary that this rank owns. -/
def OnBoundary (c : Ctx) (i : Nat) : Prop :=
  i < c.numFaces ∧ (c.face i).isLocal = true ∧ (c.face i).isInternal = false

/-- The number that the header gives to a boundary type. -/
def number : Bc → ℤ
  | .dirichlet => 0
  | .neumann => 1
  | .seepage => 2

end TDy.Fvtpf.Spec

namespace TDy.Settings.Spec

/-- One setting with its value. -/
inductive Item where
  /-- how MPFA-O computes its transmissibilities -/
  | gmatrix (g : Gmatrix)
  /-- the boundary type of MPFA-O -/
  | bc (b : Bc)
  /-- the quadrature of WY -/
  | wyQuad (q : Quad)
  /-- the quadrature of BDM -/
  | bdmQuad (q : Quad)

/-- The call asks for this setting. -/
def Asks : Call → Item → Prop
  | .gmatrix g, .gmatrix g' => g = g'
  | .bc b, .bc b' => b = b'
  | .wyQuad q, .wyQuad q' => q = q'
  | .bdmQuad q, .bdmQuad q' => q = q'
  | .options l, .gmatrix g => l.gmatrix = some g
  | .options l, .bc b => l.bc = some b
  | .options l, .wyQuad q => l.quad = some q
  | .options l, .bdmQuad q => l.quad = some q
  | _, _ => False

/-- The call is about the same setting, or is `TDySetFromOptions`. -/
def Touches : Call → Item → Prop
  | .options _, _ => True
  | .gmatrix _, .gmatrix _ => True
  | .bc _, .bc _ => True
  | .wyQuad _, .wyQuad _ => True
  | .bdmQuad _, .bdmQuad _ => True
  | _, _ => False

/-- The method that the setting belongs to. -/
def owner : Item → Method
  | .gmatrix _ => .mpfao
  | .bc _ => .mpfao
  | .wyQuad _ => .wy
  | .bdmQuad _ => .bdm

/-- The struct of the method holds the setting. -/
def Holds : Context → Item → Prop
  | .mpfao g _, .gmatrix g' => g = g'
  | .mpfao _ b, .bc b' => b = b'
  | .wy q, .wyQuad q' => q = q'
  | .bdm q, .bdmQuad q' => q = q'
  | _, _ => False

/-- A setter of the chosen method. -/
def Fits (m : Method) : Call → Prop
  | .options _ => True
  | .gmatrix _ => m = .mpfao
  | .bc _ => m = .mpfao
  | .wyQuad _ => m = .wy
  | .bdmQuad _ => m = .bdm

end TDy.Settings.Spec
