import Verif.Model.MpfaoCoupled

/-!
# Model of the accumulation part of the Jacobian of the TH mode

src/fv/mpfao/tdympfao_th_ts.c 577-886.
-/

namespace TDy.Mpfao

noncomputable section

/-- A quantity of a cell with its derivatives with respect to pressure and temperature, as the variables
`x`, `dx_dP`, `dx_dT`, `d2x_dP2`, `d2x_dT2`, `d2x_dTdP` (`d2x_dPdT` is a copy of it)
of src/fv/mpfao/tdympfao_th_ts.c:587-593 hold them. -/
structure Qty where
  v : ℝ
  dP : ℝ
  dT : ℝ
  dPP : ℝ
  dTT : ℝ
  dTP : ℝ

/-- TDyMPFAOIJacobian_Accumulation_TH (src/fv/mpfao/tdympfao_th_ts.c:674-676) -/
def dmassP (phi rho S : Qty) : ℝ :=
  rho.v*phi.dP*S.v + rho.dP*phi.v*S.v + rho.v*phi.v*S.dP

/-- TDyMPFAOIJacobian_Accumulation_TH (src/fv/mpfao/tdympfao_th_ts.c:678-688) -/
def d2massPP (phi rho S : Qty) : ℝ :=
  S.dP*rho.v*phi.dP + S.v*rho.dP*phi.dP + S.v*rho.v*phi.dPP + S.dP*rho.dP*phi.v +
    S.v*rho.dPP*phi.v + S.v*rho.dP*phi.dP + S.dPP*rho.v*phi.v + S.dP*rho.dP*phi.v +
    S.dP*rho.v*phi.dP

/-- TDyMPFAOIJacobian_Accumulation_TH (src/fv/mpfao/tdympfao_th_ts.c:690-700): also `d2mass_dTdP` -/
def d2massPT (phi rho S : Qty) : ℝ :=
  S.dT*rho.dP*phi.v + S.v*rho.dTP*phi.v + S.v*rho.dP*phi.dT + S.dTP*rho.v*phi.v +
    S.dP*rho.dT*phi.v + S.dP*rho.v*phi.dT + S.dT*rho.v*phi.dP + S.v*rho.dT*phi.dP +
    S.v*rho.v*phi.dTP

/-- TDyMPFAOIJacobian_Accumulation_TH (src/fv/mpfao/tdympfao_th_ts.c:710-714) -/
def dmassT (phi rho S : Qty) : ℝ :=
  S.v*rho.dT*phi.v + S.dT*rho.v*phi.v + S.v*rho.v*phi.dT

/-- TDyMPFAOIJacobian_Accumulation_TH (src/fv/mpfao/tdympfao_th_ts.c:716-726) -/
def d2massTT (phi rho S : Qty) : ℝ :=
  S.dT*rho.dT*phi.v + S.v*rho.dTT*phi.v + S.v*rho.dT*phi.dT + S.dTT*rho.v*phi.v +
    S.dT*rho.dT*phi.v + S.dT*rho.v*phi.dT + S.dT*rho.v*phi.dT + S.v*rho.dT*phi.dT +
    S.v*rho.v*phi.dTT

/-- TDyMPFAOIJacobian_Accumulation_TH (src/fv/mpfao/tdympfao_th_ts.c:739-743) -/
def denergyP (phi rho S u : Qty) (rock T : ℝ) : ℝ :=
  rho.dP*phi.v*S.v*u.v + rho.v*phi.dP*S.v*u.v + rho.v*phi.v*S.dP*u.v + rho.v*phi.v*S.v*u.dP +
    rock*(-phi.dP)*T

/-- TDyMPFAOIJacobian_Accumulation_TH (src/fv/mpfao/tdympfao_th_ts.c:745-761) -/
def d2energyPP (phi rho S u : Qty) (rock T : ℝ) : ℝ :=
  rho.dPP*phi.v*S.v*u.v + rho.dP*phi.dP*S.v*u.v + rho.dP*phi.v*S.dP*u.v +
    rho.dP*phi.v*S.v*u.dP + rho.dP*phi.dP*S.v*u.v + rho.v*phi.dPP*S.v*u.v +
    rho.v*phi.dP*S.dP*u.v + rho.v*phi.dP*S.v*u.dP + rho.dP*phi.v*S.dP*u.v +
    rho.v*phi.dP*S.dP*u.v + rho.v*phi.v*S.dPP*u.v + rho.v*phi.v*S.dP*u.dP +
    rho.dP*phi.v*S.v*u.dP + rho.v*phi.dP*S.v*u.dP + rho.v*phi.v*S.dP*u.dP +
    rho.v*phi.v*S.v*u.dPP + rock*(-phi.dPP)*T

/-- TDyMPFAOIJacobian_Accumulation_TH (src/fv/mpfao/tdympfao_th_ts.c:763-780): also
`d2energy_dTdP` -/
def d2energyPT (phi rho S u : Qty) (rock T : ℝ) : ℝ :=
  rho.dTP*phi.v*S.v*u.v + rho.dP*phi.dT*S.v*u.v + rho.dP*phi.v*S.dT*u.v +
    rho.dP*phi.v*S.v*u.dT + rho.dT*phi.dP*S.v*u.v + rho.v*phi.dTP*S.v*u.v +
    rho.v*phi.dP*S.dT*u.v + rho.v*phi.dP*S.v*u.dT + rho.dT*phi.v*S.dP*u.v +
    rho.v*phi.dT*S.dP*u.v + rho.v*phi.v*S.dTP*u.v + rho.v*phi.v*S.dP*u.dT +
    rho.dT*phi.v*S.v*u.dP + rho.v*phi.dT*S.v*u.dP + rho.v*phi.v*S.dT*u.dP +
    rho.v*phi.v*S.v*u.dTP + rock*(-phi.dTP)*T + rock*(-phi.dP)

/-- TDyMPFAOIJacobian_Accumulation_TH (src/fv/mpfao/tdympfao_th_ts.c:793-798) -/
def denergyT (phi rho S u : Qty) (rock T : ℝ) : ℝ :=
  rho.dT*phi.v*S.v*u.v + rho.v*phi.dT*S.v*u.v + rho.v*phi.v*S.dT*u.v + rho.v*phi.v*S.v*u.dT +
    rock*(-phi.dT)*T + rock*(1-phi.v)

/-- TDyMPFAOIJacobian_Accumulation_TH (src/fv/mpfao/tdympfao_th_ts.c:800-818) -/
def d2energyTT (phi rho S u : Qty) (rock T : ℝ) : ℝ :=
  rho.dTT*phi.v*S.v*u.v + rho.dT*phi.dT*S.v*u.v + rho.dT*phi.v*S.dT*u.v +
    rho.dT*phi.v*S.v*u.dT + rho.dT*phi.dT*S.v*u.v + rho.v*phi.dTT*S.v*u.v +
    rho.v*phi.dT*S.dT*u.v + rho.v*phi.dT*S.v*u.dT + rho.dT*phi.v*S.dT*u.v +
    rho.v*phi.dT*S.dT*u.v + rho.v*phi.v*S.dTT*u.v + rho.v*phi.v*S.dT*u.dT +
    rho.dT*phi.v*S.v*u.dT + rho.v*phi.dT*S.v*u.dT + rho.v*phi.v*S.dT*u.dT +
    rho.v*phi.v*S.v*u.dTT + rock*(-phi.dTT)*T + rock*(-phi.dT) + rock*(-phi.dT)

/-- src/fv/mpfao/tdympfao_th_ts.c:630-636 -/
def qtyPhi (t : Th) (i : Nat) : Qty := ⟨t.base.por i, 0.0, 0.0, 0.0, 0.0, 0.0⟩

/-- src/fv/mpfao/tdympfao_th_ts.c:639-645 -/
def qtyRho (t : Th) (i : Nat) : Qty :=
  ⟨(t.base.cells i).rho, (t.base.cells i).drho, (t.heat i).drhodT, t.base.d2rho i, 0.0, 0.0⟩

/-- src/fv/mpfao/tdympfao_th_ts.c:648-654 -/
def qtyS (t : Th) (i : Nat) : Qty :=
  ⟨(t.base.cells i).S, (t.base.cells i).dSdP, (t.heat i).dSdT, t.base.d2S i, 0.0, 0.0⟩

/-- src/fv/mpfao/tdympfao_th_ts.c:657-663 -/
def qtyU (t : Th) (i : Nat) : Qty := ⟨(t.heat i).u, (t.heat i).dudP, (t.heat i).dudT, 0.0, 0.0, 0.0⟩

/-- `Jac` of cell `i`, src/fv/mpfao/tdympfao_th_ts.c:704 (`Jac[0]`), 728 (`Jac[2]`), 785 (`Jac[1]`),
821 (`Jac[3]`). -/
def thAccumBlock (t : Th) (dpdt dTdt : Nat → ℝ) (shift : ℝ) (i : Nat) : Block :=
  let phi := qtyPhi t i
  let rho := qtyRho t i
  let S := qtyS t i
  let u := qtyU t i
  let rock := (t.heat i).rock
  let T := (t.heat i).T
  { mP := (shift*dmassP phi rho S + d2massPP phi rho S*dpdt i + d2massPT phi rho S*dTdt i)*t.base.vol i
    mT := (shift*dmassT phi rho S + d2massTT phi rho S*dTdt i + d2massPT phi rho S*dpdt i)*t.base.vol i
    eP := (shift*denergyP phi rho S u rock T + d2energyPP phi rho S u rock T*dpdt i
      + d2energyPT phi rho S u rock T*dTdt i)*t.base.vol i
    eT := (shift*denergyT phi rho S u rock T + d2energyTT phi rho S u rock T*dTdt i
      + d2energyPT phi rho S u rock T*dpdt i)*t.base.vol i }

/-- TDyMPFAOIJacobian_Accumulation_TH (src/fv/mpfao/tdympfao_th_ts.c:577-841) -/
def thJacobianAccum (t : Th) (dpdt dTdt : Nat → ℝ) (shift : ℝ) (A : Nat → Nat → Block) :
    Nat → Nat → Block :=
  forN t.base.numCells (fun i A =>
    if !t.base.isLocal i then A else addBlock A i i (thAccumBlock t dpdt dTdt shift i)) A

/-- TDyMPFAOIJacobian_TH (src/fv/mpfao/tdympfao_th_ts.c:844-886), after the solution has been
distributed. -/
def thJacobian (t : Th) (dpdt dTdt : Nat → ℝ) (shift : ℝ) : Nat → Nat → Block :=
  thJacobianAccum t dpdt dTdt shift (thJacobianVertices t fun _ _ => ⟨0, 0, 0, 0⟩)

end

end TDy.Mpfao
