import Verif.Model.Lifecycle

/-!
# Which residual, Jacobian and step hooks are installed (src/tdycore.c:1868-2162)
-/

namespace TDy

/-- The governing equations and form a residual or Jacobian routine is written for. -/
inductive Routine where
  | mpfaoRichards        -- TDyMPFAOIFunction / TDyMPFAOIJacobian (TS form)
  | mpfaoTH              -- TDyMPFAOIFunction_TH / TDyMPFAOIJacobian_TH
  | mpfaoDae             -- TDyMPFAOIFunction_DAE
  | mpfaoTransientVar    -- TDyMPFAOIFunction_TransientVariable
  | wy                   -- TDyWYResidual
  | mpfaoSnesRichards    -- TDyMPFAOSNESFunction / TDyMPFAOSNESJacobian / PreSolve
  | mpfaoSnesSalinity    -- TDyMPFAOSNESFunction_Salinity / PreSolve_Salinity
  | fvtpfSnes            -- TDyFVTPFSNESFunction / Jacobian / PreSolve / TimeCut
  deriving DecidableEq, Repr

/-- What a hook-installing call does. -/
inductive Hook where
  | installed (r : Routine)
  /-- returns 0 without installing anything -/
  | nothing
  /-- PETSC_ERR_SUP -/
  | unsupported
  deriving DecidableEq, Repr

/-- src/tdycore.c:1868-1921, `TDySetIFunction`. -/
def setIFunction : Mode → Disc → Hook
  | .richards, .mpfaO => .installed .mpfaoRichards
  | .th, .mpfaO => .installed .mpfaoTH
  | .salinity, .mpfaO => .unsupported
  | _, .mpfaODae => .installed .mpfaoDae
  | _, .mpfaOTransientVar => .installed .mpfaoTransientVar
  | _, .bdm => .unsupported
  | _, .wy => .installed .wy
  | _, .fvTpf => .unsupported

/-- src/tdycore.c:1923-1966, `TDySetIJacobian`. -/
def setIJacobian : Mode → Disc → Hook
  | .richards, .mpfaO => .installed .mpfaoRichards
  | .th, .mpfaO => .installed .mpfaoTH
  | .salinity, .mpfaO => .nothing
  | _, .mpfaODae => .nothing
  | _, .mpfaOTransientVar => .nothing
  | _, .bdm => .unsupported
  | _, .wy => .unsupported
  | _, .fvTpf => .unsupported

/-- src/tdycore.c:1968-2015, `TDySetSNESFunction`. -/
def setSNESFunction : Mode → Disc → Hook
  | .richards, .mpfaO => .installed .mpfaoSnesRichards
  | .th, .mpfaO => .installed .mpfaoSnesRichards
  | .salinity, .mpfaO => .installed .mpfaoSnesSalinity
  | _, .mpfaODae => .unsupported
  | _, .mpfaOTransientVar => .unsupported
  | _, .bdm => .unsupported
  | _, .wy => .unsupported
  | _, .fvTpf => .installed .fvtpfSnes

/-- src/tdycore.c:2017-2054, `TDySetSNESJacobian`. -/
def setSNESJacobian : Mode → Disc → Hook
  | _, .mpfaO => .installed .mpfaoSnesRichards
  | _, .mpfaODae => .unsupported
  | _, .mpfaOTransientVar => .unsupported
  | _, .bdm => .unsupported
  | _, .wy => .unsupported
  | _, .fvTpf => .installed .fvtpfSnes

/-- src/tdycore.c:2074-2120, `TDyPreSolveSNESSolver`. -/
def preSolve : Mode → Disc → Hook
  | .richards, .mpfaO => .installed .mpfaoSnesRichards
  | .th, .mpfaO => .unsupported
  | .salinity, .mpfaO => .installed .mpfaoSnesSalinity
  | _, .mpfaODae => .unsupported
  | _, .mpfaOTransientVar => .unsupported
  | _, .bdm => .unsupported
  | _, .wy => .unsupported
  | _, .fvTpf => .installed .fvtpfSnes

/-- src/tdycore.c:2126-2162, `TDyTimeCut`. -/
def timeCut : Mode → Disc → Hook
  | _, .fvTpf => .installed .fvtpfSnes
  | _, .mpfaO => .unsupported
  | _, .mpfaODae => .unsupported
  | _, .mpfaOTransientVar => .unsupported
  | _, .bdm => .unsupported
  | _, .wy => .unsupported

end TDy
