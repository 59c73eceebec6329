import Verif.Model.State
import Mathlib.Analysis.Calculus.Deriv.Basic
import Mathlib.Analysis.SpecialFunctions.Exp
import Mathlib.Tactic.IntervalCases

/-!
# Specification of the states of cells and boundary faces

What a cell must hold, written from the formulas of the van Genuchten and Mualem curves.
-/

namespace TDy.State.Spec

open TDy.Curves TDy.Eos

noncomputable section

/-- Van Genuchten: the saturation at capillary pressure `Pc`. -/
def vgSaturation (m alpha Sr Pc : ℝ) : ℝ :=
  if Pc ≤ 0 then 1 else Sr + (1 - Sr)*(1 + (alpha*Pc) ^ (1/(1 - m))) ^ (-m)

/-- Mualem's relative permeability with a cubic from `x1` to `x2`, where it reaches 1 with slope 0;
`dkr` is the derivative of `kr`. -/
structure SmoothedMualem (o : Options) (kr dkr : ℝ → ℝ) : Prop where
  below : ∀ Se, Se ≤ o.x1 → kr Se = Real.sqrt Se*(1 - (1 - Se ^ (1/o.m)) ^ o.m)^2
  cubic : ∃ a b c d : ℝ, ∀ Se, o.x1 < Se → kr Se = a + b*Se + c*Se^2 + d*Se^3
  deriv : ∀ Se, 0 < Se → HasDerivAt kr (dkr Se) Se
  top : kr o.x2 = 1 ∧ dkr o.x2 = 0

/-- The curves of an object that has been set up with `nc` cells, and used since: evaluations on
boundary faces only build lookup tables. -/
inductive Reached (o : Options) (nc : Nat) : CC → Prop
  | setup {cc : CC} : initCurves o nc {} = .ok cc → Reached o nc cc
  | eval {cc : CC} : Reached o nc cc → Reached o nc ⟨withMaps cc.sat, withMaps cc.kr⟩

/-- The density laws: constant; constant up to 101325 Pa and then growing by the factor `e` every
10⁸ Pa; the law of Batzle and Wang as the library has it (`C79` compares it with the published one). -/
def densityLaw (ty : DensityType) (P T S : ℝ) : Option ℝ :=
  match ty with
  | .constant => some 998
  | .exponential => some (997.16*Real.exp (1e-8*(max P 101325 - 101325)))
  | .batzleWang => some (densityBatzleWang P T S).v
  | .other => none

/-- The viscosity laws (see `C80` for that of Batzle and Wang). -/
def viscosityLaw (ty : ViscosityType) (T S : ℝ) : Option ℝ :=
  match ty with
  | .constant => some 9.94e-4
  | .batzleWang => some (viscosityBatzleWang T S).v
  | .other => none

/-- The water of a cell: density and viscosity at pressure `P`, temperature `T` and its own salt
fraction, with the derivatives along the pressure where the law has some (`C81`: the laws of Batzle and
Wang come without). -/
structure WaterAt (x : Ctx) (P T : ℝ) (w : Water) : Prop where
  rho : densityLaw x.density P T w.mnacl = some w.rho
  vis : viscosityLaw x.viscosity T w.mnacl = some w.vis
  drho : x.density ≠ .batzleWang → P ≠ 101325 →
    HasDerivAt (fun p => (densityLaw x.density p T w.mnacl).getD 0) w.drho P ∧
    HasDerivAt (deriv fun p => (densityLaw x.density p T w.mnacl).getD 0) w.d2rho P
  dvis : x.viscosity ≠ .batzleWang → w.dvis = 0 ∧ w.d2vis = 0

/-- Mass fraction of salt at concentration `psi` and molecular weight `mu`. -/
def saltFraction (psi mu : ℝ) : ℝ := psi*mu/(psi*mu + 999)

/-- The options of the curves make sense. -/
structure Sound (o : Options) : Prop where
  m0 : 0 < o.m
  m1 : o.m < 1
  alpha : 0 < o.alpha
  x1pos : 0 < o.x1
  x1lt : o.x1 < 1
  x12 : o.x1 < o.x2
  dx : o.dx ≠ 0

/-- The default options (src/tdycore.c:280-287). -/
example : Sound ⟨0.8, 1.e-4, 0.995, 0.99, 1.00, 0.005⟩ := by
  constructor <;> norm_num

/-- Face `f` is the boundary face number `b`, and `c` is its cell: one of its two ids is `c`, the other
is `-b-1`. -/
def IsBoundary (f : BFace) (c b : Nat) : Prop :=
  f.internal = false ∧ ((f.up = c ∧ f.dn = -(b:ℤ) - 1) ∨ (f.dn = c ∧ f.up = -(b:ℤ) - 1))

/-- Boundary faces are numbered: a face that is not internal has a cell and a number below `nBnd`, and
distinct boundary faces have distinct numbers. -/
structure Numbered (nFaces nCells nBnd : Nat) (face : Nat → BFace) : Prop where
  ids : ∀ i < nFaces, (face i).internal = false → ∃ c < nCells, ∃ b < nBnd, IsBoundary (face i) c b
  inj : ∀ i < nFaces, ∀ j < nFaces, ∀ c c' b, IsBoundary (face i) c b → IsBoundary (face j) c' b → i = j

/-- A line of two cells, numbered from both ends: faces 0 and 2 are boundary faces. -/
example : Numbered 3 2 2 fun i => match i with
    | 0 => ⟨false, -1, 0⟩
    | 1 => ⟨true, 0, 1⟩
    | _ => ⟨false, 1, -2⟩ := by
  constructor
  · intro i hi hf
    interval_cases i
    · exact ⟨0, by decide, 0, by decide, rfl, Or.inr ⟨rfl, rfl⟩⟩
    · simp at hf
    · exact ⟨1, by decide, 1, by decide, rfl, Or.inl ⟨rfl, rfl⟩⟩
  · intro i hi j hj c c' b h h'
    interval_cases i <;> interval_cases j <;> simp only [IsBoundary] at h h' <;>
      first | rfl | omega

end

end TDy.State.Spec
