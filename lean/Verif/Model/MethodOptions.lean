import Verif.Basic
import Verif.Model.Fvtpf

/-!
# Model of the options of the methods

* the types of the boundary faces of the two-point method (src/fv/fvtpf/tdyfvtpf.c);
* the settings that a method keeps in its own struct: how the setters, the command line and
  `TDySetFromOptions` act on them (src/fv/mpfao/tdympfao.c, src/fe/tdywy.c, src/fe/tdybdm.c).
-/

namespace TDy.Fvtpf

open TDy.Geo

noncomputable section

/-- include/tdycore.h:49-53: the value an integer has as a `TDyBoundaryConditionType`; integers
outside 0..2 are refused before they are stored. -/
def Bc.ofInt (b : ℤ) : Bc :=
  if b = 0 then .dirichlet else if b = 1 then .neumann else .seepage

/-- src/fv/share/tdymesh.c:298-312: every face of a new mesh is closed. -/
def newTypes : Nat → Bc := fun _ => .neumann

/-- src/fv/fvtpf/tdyfvtpf.c:332-359, `SetFaceBoundaryConditionType`.  `typeFn` is the function set
with `TDySetBoundaryPressureTypeFunction`, if any; it is called for one point at a time. -/
def setFaceTypes (c : Ctx) (centroid : Nat → P3) (typeFn : Option (P3 → ℤ)) (bc : Nat → Bc) :
    Res (Nat → Bc) :=
  match typeFn with
  | none => .ok bc
  | some t =>
    forN c.numFaces (fun i (r : Res (Nat → Bc)) => r.bind fun bc =>
      if (c.face i).isLocal = false ∨ (c.face i).isInternal = true then .ok bc
      else if t (centroid i) < 0 ∨ t (centroid i) > 2 then .err bc
      else .ok (wr bc i (Bc.ofInt (t (centroid i))))) (.ok bc)

/-- The field `bc_type` of `TDyFVTPF` after `TDyCreate_FVTPF` (src/fv/fvtpf/tdyfvtpf.c:24) and
`TDySetFromOptions_FVTPF` (src/fv/fvtpf/tdyfvtpf.c:63-74); `opt` is the value of
`-tdy_fvtpf_boundary_condition_type`, if it is given. -/
def contextType (opt : Option Bc) : Bc :=
  match opt with
  | none => .neumann
  | some b => b

/-- What the set-up leaves of boundary types: the field of the context and the types of faces. -/
structure Types where
  context : Bc
  face : Nat → Bc

/-- src/fv/fvtpf/tdyfvtpf.c:449-496, `TDySetup_Richards_FVTPF`, as far as boundary types are
concerned, after `TDySetFromOptions`. -/
def setupTypes (c : Ctx) (centroid : Nat → P3) (opt : Option Bc) (typeFn : Option (P3 → ℤ)) :
    Res Types :=
  match setFaceTypes c centroid typeFn newTypes with
  | .ok bc => .ok { context := contextType opt, face := bc }
  | .err bc => .err { context := contextType opt, face := bc }
  | .ub => .ub

/-- The mesh with the types of a set-up: what the residual (src/fv/fvtpf/tdyfvtpf_snes.c:590-616)
and the Jacobian see.  Neither reads the field of the context. -/
def withTypes (c : Ctx) (t : Types) : Ctx :=
  { c with face := fun i => { c.face i with bc := t.face i } }

end

end TDy.Fvtpf

namespace TDy.Settings

/-- include/tdycore.h:42-45, `TDyMPFAOGmatrixMethod`. -/
inductive Gmatrix where
  | default | tpf
  deriving DecidableEq

/-- include/tdycore.h:270-274, `TDyQuadratureType`. -/
inductive Quad where
  | lumped | full
  deriving DecidableEq

/-- include/tdycore.h:49-53 -/
inductive Bc where
  | dirichlet | neumann | seepage
  deriving DecidableEq

/-- The structs of the methods with the fields the user can set: `TDyMPFAO`, `TDyWY`, `TDyBDM`,
`TDyFVTPF`. -/
inductive Context where
  | mpfao (g : Gmatrix) (b : Bc)
  | fvtpf (b : Bc)
  | wy (q : Quad)
  | bdm (q : Quad)
  deriving DecidableEq

/-- The methods, by the struct they use. -/
inductive Method where
  | mpfao | fvtpf | wy | bdm
  deriving DecidableEq

/-- What the command line says of the settings (`none`: nothing). -/
structure CmdLine where
  gmatrix : Option Gmatrix := none
  bc : Option Bc := none
  fvtpfBc : Option Bc := none
  quad : Option Quad := none

/-- `TDyCreate_MPFAO` (src/fv/mpfao/tdympfao.c:428-446), `TDyCreate_FVTPF`
(src/fv/fvtpf/tdyfvtpf.c:14-30), `TDyCreate_WY` (src/fe/tdywy.c:232-240; the struct is filled with
zeros, and `LUMPED` is 0) and `TDyCreate_BDM` (src/fe/tdybdm.c:19-36). -/
def create : Method → Context
  | .mpfao => .mpfao .default .dirichlet
  | .fvtpf => .fvtpf .neumann
  | .wy => .wy .lumped
  | .bdm => .bdm .full

/-- `TDySetFromOptions_MPFAO` (src/fv/mpfao/tdympfao.c:583-596), `TDySetFromOptions_FVTPF`
(src/fv/fvtpf/tdyfvtpf.c:63-74), `TDySetFromOptions_WY` (src/fe/tdywy.c:289-294),
`TDySetFromOptions_BDM` (src/fe/tdybdm.c:63-69).  An enumeration is stored only if the option is
given. -/
def fromOptions (l : CmdLine) : Context → Context
  | .mpfao g b =>
    .mpfao (l.gmatrix.getD g) (match l.bc with
      | none => b
      | some b' => if b' ≠ b then b' else b)
  | .fvtpf b =>
    .fvtpf (match l.fvtpfBc with
      | none => b
      | some b' => if b' ≠ b then b' else b)
  | .wy q => .wy (l.quad.getD q)
  | .bdm q => .bdm (l.quad.getD q)

/-- The part of a dycore that concerns these settings: the method chosen with
`TDySetDiscretization` and `tdy->context`. -/
structure Dy where
  method : Method
  context : Option Context := none

/-- The calls of the user. -/
inductive Call where
  | options (l : CmdLine)
  | gmatrix (g : Gmatrix)
  | bc (b : Bc)
  | wyQuad (q : Quad)
  | bdmQuad (q : Quad)

/-- `TDySetFromOptions` (src/tdycore.c:644-651), `TDyMPFAOSetGmatrixMethod` and
`TDyMPFAOSetBoundaryConditionType` (src/fv/mpfao/tdympfao.c:406-426), `TDyWYSetQuadrature`
(src/fe/tdywy.c:225-230), `TDyBDMSetQuadrature` (src/fe/tdybdm.c:12-17).  The setters cast
`tdy->context` to the struct of their method; a NULL pointer or a struct of another method is
undefined behaviour.  Simplified: `TDySetFromOptions` succeeds. -/
def step (d : Dy) : Call → Res Dy
  | .options l => .ok { d with context := some (fromOptions l (create d.method)) }
  | .gmatrix g =>
    match d.context with
    | some (.mpfao _ b) => .ok { d with context := some (.mpfao g b) }
    | _ => .ub
  | .bc b =>
    match d.context with
    | some (.mpfao g _) => .ok { d with context := some (.mpfao g b) }
    | _ => .ub
  | .wyQuad q =>
    match d.context with
    | some (.wy _) => .ok { d with context := some (.wy q) }
    | _ => .ub
  | .bdmQuad q =>
    match d.context with
    | some (.bdm _) => .ok { d with context := some (.bdm q) }
    | _ => .ub

/-- A program of the user. -/
def run (d : Dy) : List Call → Res Dy
  | [] => .ok d
  | c :: cs => (step d c).bind fun d => run d cs

/-- The rule with which a method integrates over a cell: BDM chooses it by `qtype`
(src/fe/tdybdm.c:445-457); WY always takes the vertices (src/fe/tdywy.c:386-387) and never reads
`qtype`; the finite-volume methods have none. -/
def rule : Context → Option Quad
  | .bdm q => some q
  | .wy _ => some .lumped
  | _ => none

end TDy.Settings
