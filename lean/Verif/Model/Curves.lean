import Verif.Loop
import Verif.Basic
import Mathlib.Analysis.SpecialFunctions.Pow.Real
import Mathlib.LinearAlgebra.Matrix.NonsingularInverse

/-!
# Model of the characteristic curves (src/materials/tdycharacteristiccurves.c)

`PetscPowReal` is `Real.rpow`, `PetscExpReal` is `Real.exp`, `PetscSqrtReal` is `Real.sqrt`.
All output pointers are non-NULL (so every derivative is computed).  For a negative base or a
division by zero the C functions give NaN or infinity; the theorems state the ranges in which
this does not happen.
-/

namespace TDy.Curves

noncomputable section

/-- What a saturation function writes: `S`, `dS_dP`, `d2S_dP2`. -/
structure Sat where
  S : ℝ
  dS : ℝ
  d2S : ℝ

/-- What a relative permeability function writes: `Kr`, `dKr_dSe`. -/
structure Kr where
  k : ℝ
  dk : ℝ

/-- src/materials/tdycharacteristiccurves.c:641-662, `PressureSaturation_Gardner` (the parameter
`n` is not used by the code). -/
def gardner (m alpha Sr Pc : ℝ) : Sat :=
  if Pc < 0 then { S := 1, dS := 0, d2S := 0 }
  else
    let Se := Real.exp (-alpha*Pc/m)
    let dSe_dPc := -alpha/m*Real.exp (-alpha*Pc/m)
    let d2Se_dPc2 := -alpha/m*dSe_dPc
    { S := (1.0 - Sr)*Se + Sr, dS := -dSe_dPc*(1.0 - Sr), d2S := (1.0 - Sr)*d2Se_dPc2 }

/-- src/materials/tdycharacteristiccurves.c:692-719, `PressureSaturation_VanGenuchten`. -/
def vanGenuchten (m alpha Sr Pc : ℝ) : Sat :=
  if Pc ≤ 0 then { S := 1, dS := 0, d2S := 0 }
  else
    let n := 1/(1-m)
    let pc_alpha := Pc*alpha
    let pc_alpha_n := pc_alpha ^ n
    let one_plus_pc_alpha_n := 1 + pc_alpha_n
    let Se := one_plus_pc_alpha_n ^ (-m)
    let dSe_dPc := -m*n*alpha*pc_alpha_n/(pc_alpha*one_plus_pc_alpha_n ^ (m+1))
    let d2Se_dPc2 := m*n*pc_alpha_n*one_plus_pc_alpha_n ^ (-m-2.0)
      *((m*n+1.0)*pc_alpha_n-n+1)/Pc ^ (2.0:ℝ)
    { S := (1.0 - Sr)*Se + Sr, dS := -dSe_dPc*(1.0 - Sr), d2S := (1.0 - Sr)*d2Se_dPc2 }

/-- src/materials/tdycharacteristiccurves.c:443-452, `RelativePermeability_Irmay`. -/
def irmay (m Se : ℝ) : Kr :=
  if 1.0 ≤ Se then { k := 1.0, dk := 0.0 }
  else { k := Se ^ m, dk := Se ^ (m-1)*m }

/-- src/materials/tdycharacteristiccurves.c:468-486, `RelativePermeability_Mualem_Unsmoothed`. -/
def mualemUnsmoothed (m Se : ℝ) : Kr :=
  if 1.0 ≤ Se then { k := 1.0, dk := 0.0 }
  else
    let Se_one_over_m := Se ^ (1/m)
    let tmp := (1-Se_one_over_m) ^ m
    let K := Real.sqrt Se*(1-tmp)^2
    { k := K
      dk := 0.5*K/Se
        + 2*Se ^ (1/m-0.5)*(1-Se_one_over_m) ^ (m-1)*(1-(1-Se_one_over_m) ^ m) }

/-- src/materials/tdycharacteristiccurves.c:509-537, the matrix of `CubicPolynomialSetup`.  The
C array is column-major: `A[4*j+i]` is row `i`, column `j`. -/
def cubicMatrix (x0 x1 x2 dx : ℝ) : Matrix (Fin 4) (Fin 4) ℝ :=
  let xt1 := (x1-x0)/dx
  let xt2 := (x2-x0)/dx
  !![1.0, xt2,    xt2^2,       xt2^3;
     1.0, xt1,    xt1^2,       xt1^3;
     0.0, 1.0/dx, 2.0*xt2/dx, 3.0*xt2^2/dx;
     0.0, 1.0/dx, 2.0*xt1/dx, 3.0*xt1^2/dx]

/-- src/materials/tdycharacteristiccurves.c:509-537, `CubicPolynomialSetup`: `dgesv` solves the
system, or reports a singular matrix (`info > 0`), which is returned as an error. -/
def cubicSetup (x0 x1 x2 dx : ℝ) (rhs : Fin 4 → ℝ) : Option (Fin 4 → ℝ) :=
  open Classical in
  if (cubicMatrix x0 x1 x2 dx).det ≠ 0 then some ((cubicMatrix x0 x1 x2 dx)⁻¹.mulVec rhs)
  else none

/-- src/materials/tdycharacteristiccurves.c:551-562, `CubicPolynomialEvaluate`. -/
def cubicEvaluate (c : Fin 4 → ℝ) (x x0 dx : ℝ) : Kr :=
  let xt := (x-x0)/dx
  { k := c 0 + xt*(c 1 + xt*(c 2 + xt*c 3))
    dk := (c 1 + xt*(2.0*c 2 + xt*3.0*c 3))/dx }

/-- src/materials/tdycharacteristiccurves.c:577-597,
`RelativePermeability_Mualem_GetSmoothingCoeffs`. -/
def smoothingCoeffs (m x0 x1 x2 dx : ℝ) : Option (Fin 4 → ℝ) :=
  let u := mualemUnsmoothed m x1
  cubicSetup x0 x1 x2 dx ![1.0, u.k, 0.0, u.dk]

/-- src/materials/tdycharacteristiccurves.c:607-614, `RelativePermeability_Mualem`. -/
def mualem (m x0 x1 dx : ℝ) (c : Fin 4 → ℝ) (Se : ℝ) : Kr :=
  if Se > x1 then cubicEvaluate c Se x0 dx else mualemUnsmoothed m Se

/-! ## Tables of points -/

/-- include/private/tdycharacteristiccurvesimpl.h: the points and parameters of one model type. -/
structure Table where
  num : Nat := 0
  points : Nat → Nat := fun _ => 0
  params : Nat → ℝ := fun _ => 0

/-- A point map (khash): the offset stored for each key, and its number of entries.  The offset
stored is that of the last `kh_put` of the key. -/
structure PointMap where
  get : Nat → Option Nat
  nonEmpty : Bool
  num : Nat

/-- src/materials/tdycharacteristiccurves.c:159-176: the map of one type. -/
def buildMap (t : Table) : PointMap :=
  { get := forN t.num (fun i g => wr g (t.points i) (some i)) (fun _ => none)
    nonEmpty := decide (t.num ≠ 0)
    num := t.num }

/-- `Saturation` (types GARDNER = 0, VAN_GENUCHTEN = 1) and `RelativePermeability`
(IRMAY = 0, MUALEM = 1): two tables, and the lazily built maps (NULL is `none`). -/
structure Model2 where
  t0 : Table := {}
  t1 : Table := {}
  maps : Option (PointMap × PointMap) := none

/-- The model type argument of `SaturationSetType` and `RelativePermeabilitySetType`. -/
inductive Ty where
  | first | second
  deriving DecidableEq

/-- src/materials/tdycharacteristiccurves.c:72-112 and 271-314, `SaturationSetType` and
`RelativePermeabilitySetType`: drop both maps, copy points and parameters. -/
def setType (s : Model2) (ty : Ty) (num : Nat) (points : Nat → Nat) (params : Nat → ℝ) : Model2 :=
  match ty with
  | .first => { s with t0 := { num := num, points := points, params := params }, maps := none }
  | .second => { s with t1 := { num := num, points := points, params := params }, maps := none }

/-- The Gardner branch for the entry at offset `i` (parameters `3*i .. 3*i+2` = n, m, alpha). -/
def evalGardner (p : Nat → ℝ) (i : Nat) (Sr Pc : ℝ) : Sat :=
  gardner (p (3*i+1)) (p (3*i+2)) Sr Pc

/-- The Van Genuchten branch for the entry at offset `i` (parameters `2*i, 2*i+1` = m, alpha). -/
def evalVG (p : Nat → ℝ) (i : Nat) (Sr Pc : ℝ) : Sat :=
  vanGenuchten (p (2*i)) (p (2*i+1)) Sr Pc

/-- The Irmay branch (parameter `i` = m). -/
def evalIrmay (p : Nat → ℝ) (i : Nat) (Se : ℝ) : Kr := irmay (p i) Se

/-- The Mualem branch (parameters `9*i ..`: m, x0, x1, x2, dx, four coefficients). -/
def evalMualem (p : Nat → ℝ) (i : Nat) (Se : ℝ) : Kr :=
  mualem (p (9*i)) (p (9*i+1)) (p (9*i+2)) (p (9*i+4)) (fun k => p (9*i+5+k)) Se

/-- src/materials/tdycharacteristiccurves.c:125-157, `SaturationCompute`: type 0 first. -/
def saturationCompute (s : Model2) (Sr Pc : Nat → ℝ) (out : Nat → Sat) : Nat → Sat :=
  let out := forN s.t0.num (fun i o =>
    let j := s.t0.points i
    wr o j (evalGardner s.t0.params i (Sr j) (Pc j))) out
  forN s.t1.num (fun i o =>
    let j := s.t1.points i
    wr o j (evalVG s.t1.params i (Sr j) (Pc j))) out

/-- src/materials/tdycharacteristiccurves.c:195-197, 388-390: build the maps if there are none. -/
def withMaps (s : Model2) : Model2 :=
  match s.maps with
  | some _ => s
  | none => { s with maps := some (buildMap s.t0, buildMap s.t1) }

/-- The result of looking a point up in the maps, type 0 first. -/
inductive Lookup where
  | inFirst (offset : Nat)
  | inSecond (offset : Nat)
  | unregistered
  /-- the code tests `kh_exist` on the end iterator, which can read past the flag array -/
  | ub
  deriving DecidableEq

/-- src/materials/tdycharacteristiccurves.c:204-211, 397-404: the loop over types.  `missOob n`
says whether, in a map of `n` inserted points, `kh_exist(map, kh_end(map))` reads past the flag
array; it depends on the hash table's size and is left arbitrary. -/
def lookup (missOob : Nat → Bool) (m : PointMap × PointMap) (point : Nat) : Lookup :=
  let second : Lookup :=
    if m.2.nonEmpty then
      match m.2.get point with
      | some j => .inSecond j
      | none => if missOob m.2.num then .ub else .unregistered
    else .unregistered
  if m.1.nonEmpty then
    match m.1.get point with
    | some j => .inFirst j
    | none => if missOob m.1.num then .ub else second
  else second

/-- src/materials/tdycharacteristiccurves.c:189-236, `SaturationComputeOnPoints`: `none` is
undefined behaviour. `Sr`, `Pc` and `out` are indexed by position in `points`. -/
def saturationOnPoints (missOob : Nat → Bool) (s : Model2) (n : Nat) (points : Nat → Nat)
    (Sr Pc : Nat → ℝ) (out : Nat → Sat) : Option (Model2 × (Nat → Sat)) :=
  let s := withMaps s
  match s.maps with
  | none => none
  | some m =>
    (forN n (fun i (o : Option (Nat → Sat)) =>
      o.bind fun o =>
        match lookup missOob m (points i) with
        | .inFirst j => some (wr o i (evalGardner s.t0.params j (Sr i) (Pc i)))
        | .inSecond j => some (wr o i (evalVG s.t1.params j (Sr i) (Pc i)))
        | .unregistered => some o
        | .ub => none) (some out)).map fun o => (s, o)

/-- src/materials/tdycharacteristiccurves.c:325-357, `RelativePermeabilityCompute`: the arrays
are indexed by the offset `i`, not by the point `points[type][i]`. -/
def relPermCompute (s : Model2) (Se : Nat → ℝ) (out : Nat → Kr) : Nat → Kr :=
  let out := forN s.t0.num (fun i o => wr o i (evalIrmay s.t0.params i (Se i))) out
  forN s.t1.num (fun i o => wr o i (evalMualem s.t1.params i (Se i))) out

/-- src/materials/tdycharacteristiccurves.c:382-430, `RelativePermeabilityComputeOnPoints`. -/
def relPermOnPoints (missOob : Nat → Bool) (s : Model2) (n : Nat) (points : Nat → Nat)
    (Se : Nat → ℝ) (out : Nat → Kr) : Option (Model2 × (Nat → Kr)) :=
  let s := withMaps s
  match s.maps with
  | none => none
  | some m =>
    (forN n (fun i (o : Option (Nat → Kr)) =>
      o.bind fun o =>
        match lookup missOob m (points i) with
        | .inFirst j => some (wr o i (evalIrmay s.t0.params j (Se i)))
        | .inSecond j => some (wr o i (evalMualem s.t1.params j (Se i)))
        | .unregistered => some o
        | .ub => none) (some out)).map fun o => (s, o)

/-- A history of calls on one model: setters, and evaluations on points (which may build the
maps). -/
inductive Op where
  | set (ty : Ty) (num : Nat) (points : Nat → Nat) (params : Nat → ℝ)
  | evalOnPoints

/-- The effect of a history on the stored model. -/
def runOps (s : Model2) (ops : List Op) : Model2 :=
  ops.foldl (fun s o => match o with
    | .set ty num pts prm => setType s ty num pts prm
    | .evalOnPoints => withMaps s) s

end

end TDy.Curves
