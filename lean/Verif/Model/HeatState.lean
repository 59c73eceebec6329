import Verif.Model.State
import Verif.Model.MpfaoCoupled

/-!
# What the TH mode stores about cells and boundary faces

src/fv/mpfao/tdympfao.c, src/materials/tdyeos.c.
-/

namespace TDy.Mpfao

open TDy
open TDy.Fvtpf (Side)

noncomputable section

/-- `EOSComputeWaterEnthalpy` at temperature `T` and pressure `P`, src/materials/tdyeos.c:138-170:
value and derivatives with respect to pressure and temperature; `none`: error. -/
def waterEnthalpy (constant : Bool) (_T _P : ℝ) : Option (ℝ × ℝ × ℝ) :=
  if constant then some (1.8890, 0.0, 0.0) else none

/-- `AllocateMemoryForEnergyBoundaryValues`, src/fv/mpfao/tdympfao.c:338-362: the enthalpies of the
boundary faces, computed once during setup at the reference temperature and pressure. -/
def boundaryEnthalpy (constant : Bool) (Tref Pref : ℝ) (n : Nat) : Res (Nat → ℝ) :=
  forN n (fun b (r : Res (Nat → ℝ)) => r.bind fun a =>
    match waterEnthalpy constant Tref Pref with
    | none => .err a
    | some e => .ok (wr a b e.1)) (.ok fun _ => 0)

/-- The arrays of the state as the fluxes read them, src/fv/mpfao/tdympfao_th_ts.c:60-123, 231-241. -/
def sideOf (st : State.St) (c : Nat) : Side :=
  { P := st.pVec c, S := (st.sat c).S, Kr := (st.kr c).k, vis := (st.water c).vis
    rho := (st.water c).rho, dSdP := (st.sat c).dS, dKrdS := (st.kr c).dk
    dvis := (st.water c).dvis, drho := (st.water c).drho }

/-- The arrays of the state as the energy balance reads them.  `dS_dT`, `drho_dT`, `du_dP`, `du_dT`
and `dvis_dT` are allocated with zeros (src/fv/mpfao/tdympfao.c:672-690, `TDyAlloc` is `PetscCalloc1`,
include/private/tdymemoryimpl.h:11) and never written. -/
def heatOf (st : State.St) (rock source gz : Nat → ℝ) (c : Nat) : Heat :=
  { T := st.tVec c, h := (st.water c).h, dhdP := (st.water c).dhdP, dhdT := (st.water c).dhdT
    u := (st.water c).u, dudP := 0, dudT := 0, dSdT := 0, dvisdT := 0, drhodT := 0
    rock := rock c, source := source c, gz := gz c }

/-- The TH mode of mesh, material and boundary conditions `t` after an update of the state to `st`, with
boundary enthalpies `hb`: `TDyMPFAOIFunction_TH`, src/fv/mpfao/tdympfao_th_ts.c:148-230. -/
def atState (t : Th) (st : State.St) (hb : Nat → ℝ) : Th :=
  { t with
    base := { t.base with cells := sideOf st }
    heat := heatOf st (fun c => (t.heat c).rock) (fun c => (t.heat c).source) (fun c => (t.heat c).gz)
    hBnd := hb }

end

end TDy.Mpfao
