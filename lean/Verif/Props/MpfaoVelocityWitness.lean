import Verif.Props.MpfaoVelocity

/-!
# Cases for C131, C132 and C133
-/

namespace TDy.Mpfao.Props

open TDy.Mpfao TDy.Mpfao.Spec
open Finset
open Velocity

/-! ### Two cubes: a vertex they share on the boundary -/

namespace VelWitness

open SteadyWitness (T0 T0_eq)

/-- The vertex of `Witness`, with the faces in the order of its rows. -/
noncomputable def edge : VVert :=
  { isLocal := true, nFaces := 5, nBnd := 4, nCells := 2, cell := fun k => k
    face := vertexFaces Witness.v
    T := fun i j => if h : j < Witness.v.npcen + nDir Witness.v then T0 i ⟨j, h⟩ else 0
    subFace := Witness.faces, G := fun _ _ => 0 }

/-- Pressure `x + 2 y`. -/
noncomputable def m : VelIn :=
  { numVertices := 1, numFaces := 5, vert := fun _ => edge, face := fun _ => ⟨0, 1, true⟩
    isLocal := fun _ => true, internal := fun f => f == 0, area := fun _ => 1/4
    u := fun c => Geo.dot ⟨1, 2, 0⟩ (Witness.cen c) + 0, rho := fun _ => 1, gz := fun _ => 0
    bndP := some fun f => Geo.dot ⟨1, 2, 0⟩ (Witness.fc f) + 0, ref := none }

theorem isRow : RowsV edge := Or.inr ⟨le_refl 2, rfl⟩

theorem bndFaces_eq : bndFaces m edge = [(0, 2), (0, 1), (1, 3), (1, 4)] := by
  change (List.range 2).flatMap _ = _
  decide

theorem ok : VelOk m := by
  refine ⟨fun v _ => ?_, fun v _ _ => ?_⟩
  · change 4 ≤ 5; omega
  · change (bndFaces m edge).length = 4
    rw [bndFaces_eq]; rfl

theorem fromVtx : FromVtx m edge Witness.v T0 where
  wf := Witness.wf
  solved := T0_eq
  dir := rfl
  cells := rfl
  bnd := rfl
  nFaces := rfl
  face := fun _ _ => rfl
  T_eq := fun i _ j => dif_pos j.2
  sub := fun _ _ _ _ => rfl
  internal := by
    intro i hi f hf
    change i < 2 at hi
    interval_cases i <;> interval_cases f <;> rfl

theorem uniform : UniformLinear m Witness.K (fun _ => Witness.area) Witness.normal Witness.fc
    Witness.cen ⟨1, 2, 0⟩ 0 (fun f => Geo.dot ⟨1, 2, 0⟩ (Witness.fc f) + 0) := by
  refine ⟨fun v _ _ => ⟨⟨Witness.v, T0, Witness.vtx, Witness.order, fun b => b + 1, fromVtx,
    Witness.oriented, Witness.separates, ?_, ?_⟩⟩, fun v _ h => ?_, fun _ => rfl, fun _ => rfl, rfl,
    fun _ _ => rfl, fun v _ h => ?_⟩
  · intro i _ ii jj
    simp [Witness.v, m, edge]
  · intro i hi f hf hI
    change i < 2 at hi
    interval_cases i <;> interval_cases f <;> first | exact absurd hI (by decide) | rfl
  · exact absurd h.2 (show ¬(2:Nat) ≤ 1 by decide)
  · exact absurd h.2 (show ¬(2:Nat) ≤ 1 by decide)

end VelWitness

/-- Between the cubes the recovered velocity is `-(K ∇p)_x = -4`. -/
example (s : VelSt) : (recoverVelocity VelWitness.m s).vel 0 = -4 := by
  have hc : NoCorner VelWitness.m 0 := fun v _ h => absurd h.2 (show ¬(2:Nat) ≤ 1 by decide)
  obtain ⟨r, hr, hu⟩ := (C47_rows Witness.wf).2 0 0 ⟨by decide, by decide⟩
  rw [C131_linear_exact_partial VelWitness.ok VelWitness.uniform s (by decide) rfl
    (by norm_num [VelWitness.m]) hc ?_]
  · simp [Geo.dot, Witness.normal, mulK, Witness.K]; norm_num
  · have h : ∀ i ∈ range 5, i ≠ r → (if RowsV VelWitness.edge ∧ vertexFaces Witness.v i = 0 then
        Witness.area 0 else 0) = 0 := fun i hi hne =>
      if_neg fun k => hne (hu i ⟨mem_range.1 hi, k.2⟩)
    have hr5 : r ∈ range 5 := mem_range.2 hr.1
    have e : rowArea VelWitness.m (fun _ => Witness.area) 0 = ∑ v ∈ range 1, ∑ i ∈ range 5,
      if RowsV VelWitness.edge ∧ vertexFaces Witness.v i = 0 then Witness.area 0 else 0 := rfl
    rw [e, sum_range_one, sum_eq_single_of_mem r hr5 h, if_pos ⟨VelWitness.isRow, hr.2⟩]
    rfl

/-! ### The corner of a cube -/

namespace CubeWitness

noncomputable def fc : Nat → Geo.P3
  | 0 => ⟨0, 1/2, 1/2⟩ | 1 => ⟨1/2, 0, 1/2⟩ | _ => ⟨1/2, 1/2, 0⟩
noncomputable def cen (_ : Nat) : Geo.P3 := ⟨1/2, 1/2, 1/2⟩
def vtx : Geo.P3 := ⟨0, 0, 0⟩
def normal : Nat → Geo.P3
  | 0 => ⟨-1, 0, 0⟩ | 1 => ⟨0, -1, 0⟩ | _ => ⟨0, 0, -1⟩
def K : Fin 3 → Fin 3 → ℝ := fun i j => if i = j then 1 else 0
def order : Fin 3 → Nat := fun k => k

noncomputable def corner : VVert :=
  { isLocal := true, nFaces := 3, nBnd := 3, nCells := 1, cell := fun _ => 0, face := fun i => i
    T := fun _ _ => 0, subFace := fun _ k => k
    G := fun i j => if h : i < 3 ∧ j < 3 then gMatrix K (fun _ => 1/4) normal fc (cen 0)
      (fun k : Fin 3 => k) ⟨i, h.1⟩ ⟨j, h.2⟩ else 0 }

/-- Pressure `x`. -/
noncomputable def m : VelIn :=
  { numVertices := 1, numFaces := 3, vert := fun _ => corner, face := fun _ => ⟨0, -1, true⟩
    isLocal := fun _ => true, internal := fun _ => false, area := fun _ => 1/4
    u := fun c => Geo.dot ⟨1, 0, 0⟩ (cen c) + 0, rho := fun _ => 1, gz := fun _ => 0
    bndP := some fun f => Geo.dot ⟨1, 0, 0⟩ (fc f) + 0, ref := none }

theorem notRow : ¬RowsV corner := by
  rintro (h | h)
  · exact absurd h (by decide)
  · exact absurd h.1 (by decide)

theorem isCorner : CornerV corner := ⟨by decide, by decide⟩

theorem ok : VelOk m :=
  ⟨fun v _ => le_refl 3, fun v _ h => absurd h notRow⟩

theorem uniform : UniformLinear m K (fun _ _ => 1/4) normal fc cen ⟨1, 0, 0⟩ 0
    (fun f => Geo.dot ⟨1, 0, 0⟩ (fc f) + 0) := by
  refine ⟨fun v _ h => absurd h notRow, fun v _ _ => ⟨⟨vtx, order, ?_, ?_, ?_⟩⟩, fun _ => rfl,
    fun _ => rfl, rfl, fun _ _ => rfl, fun _ _ _ _ _ => rfl⟩
  · have : orientFaces fc (cen 0) vtx order = ![0, 1, 2] := by
      norm_num [orientFaces, Geo.dot, Geo.cross, Geo.join, fc, cen, vtx, order, Matrix.cons_val]
      funext k; fin_cases k <;> rfl
    intro k
    change (k : Nat) = orientFaces fc (cen 0) vtx order k
    rw [this]; fin_cases k <;> rfl
  · norm_num [Separates, Geo.dot, Geo.cross, Geo.join, fc, cen, vtx, order, m, corner]
  · intro ii jj
    simp [m, corner]

theorem rowArea_eq (f : Nat) : rowArea m (fun _ _ => 1/4) f = 0 :=
  sum_eq_zero fun _ _ => sum_eq_zero fun _ _ => if_neg fun h => notRow h.1

theorem cornerArea_eq : cornerArea m (fun _ _ => 1/4) 0 = 1/4 := by
  have e : cornerArea m (fun _ _ => 1/4) 0 = ∑ v ∈ range 1, ∑ i ∈ range 3,
    if CornerV corner ∧ i = 0 then (1/4:ℝ) else 0 := rfl
  rw [e]
  simp [isCorner, sum_range_succ]

end CubeWitness

/-- **C131 (negative).**  At the corner of a cube in which the pressure grows along `x`, the face at
`x = 0` with normal `-x` should get the velocity `1` and gets `-1`. -/
example (s : VelSt) : -Geo.dot (CubeWitness.normal 0) (mulK CubeWitness.K ⟨1, 0, 0⟩) = 1 ∧
    (recoverVelocity CubeWitness.m s).vel 0 = -1 ∧
    (recoverVelocity CubeWitness.m s).vel 0
      ≠ -Geo.dot (CubeWitness.normal 0) (mulK CubeWitness.K ⟨1, 0, 0⟩) := by
  have e : Geo.dot (CubeWitness.normal 0) (mulK CubeWitness.K ⟨1, 0, 0⟩) = -1 := by
    simp [Geo.dot, CubeWitness.normal, mulK, CubeWitness.K]
  refine ⟨by rw [e]; norm_num, ?_, ?_⟩
  · have h := C131_linear_formula CubeWitness.ok CubeWitness.uniform s (f := 0) (by decide) rfl
      (by norm_num [CubeWitness.m])
    rw [CubeWitness.rowArea_eq, CubeWitness.cornerArea_eq, e] at h
    have ha : CubeWitness.m.area 0 = 1/4 := rfl
    rw [ha] at h
    linarith
  · refine C131_corner_violated CubeWitness.ok CubeWitness.uniform s (by decide) rfl
      (by norm_num [CubeWitness.m]) ?_ ?_ (by rw [e]; norm_num)
    · rw [CubeWitness.rowArea_eq, CubeWitness.cornerArea_eq]; norm_num [CubeWitness.m]
    · rw [CubeWitness.cornerArea_eq]; norm_num

/-! ### A column of two cells under gravity -/

namespace ColumnWitness

/-- A vertex between two cells with one boundary face each; the outer rows are those of a two-point
flux. -/
def T : Nat → Nat → ℝ
  | 0, 0 => -1 | 0, 1 => 1 | 1, 0 => -1 | 1, 2 => 1 | 2, 1 => -1 | 2, 3 => 1 | _, _ => 0

def vert : VVert :=
  { isLocal := true, nFaces := 3, nBnd := 2, nCells := 2, cell := fun k => k, face := fun i => i
    T := T, subFace := fun i k => if k = 0 then i + 1 else 0, G := fun _ _ => 0 }

/-- Faces 0 between the cells, 1 and 2 on the boundary; heights of cells 1 and 2, of boundary faces 0
and 3.  `area` is the area of the faces. -/
noncomputable def m (area : ℝ) (bndP : Option (Nat → ℝ)) (ref : Option (Nat → ℤ → Nat → ℝ)) : VelIn :=
  { numVertices := 1, numFaces := 3, vert := fun _ => vert
    face := fun f => if f = 0 then ⟨0, 1, true⟩ else if f = 1 then ⟨0, -1, true⟩ else ⟨1, -2, true⟩
    isLocal := fun _ => true, internal := fun f => f == 0, area := fun _ => area
    u := fun c => -(c + 1), rho := fun _ => 1, gz := fun c => c + 1
    bndP := bndP, ref := ref }

theorem isRow : RowsV vert := Or.inr ⟨le_refl 2, rfl⟩

theorem bndFaces_eq (a p r) : bndFaces (m a p r) vert = [(0, 1), (1, 2)] := by
  change (List.range 2).flatMap (fun i => (((List.range 3).map (vert.subFace i)).filter
    fun f => (f == 0) = false).map fun f => (i, f)) = _
  decide

theorem ok (a p r) : VelOk (m a p r) := by
  refine ⟨fun v _ => ?_, fun v _ _ => ?_⟩
  · change 2 ≤ 3; omega
  · change (bndFaces (m a p r) vert).length = 2
    rw [bndFaces_eq]; rfl

theorem rows (a p r) : RowsSumZero (m a p r) := by
  intro v _ _ i hi
  change i < 3 at hi
  change ∑ k ∈ range 4, T i k = 0
  interval_cases i <;> simp [sum_range_succ, T]

/-- `g z` of the boundary faces -/
def gzf : Nat → ℝ
  | 2 => 3 | _ => 0

theorem atRest (a r) : AtRest (m a (some fun f => -gzf f) r) (fun f => -gzf f) 1 0 gzf :=
  ⟨fun _ => rfl, fun k => by simp [m], rfl, fun f => by ring⟩

theorem noCorner (a p r f) : NoCorner (m a p r) f := fun v _ h => absurd h.2 (show ¬(2:Nat) ≤ 1 by decide)

theorem overRows_eq (a p r) (g : VVert → Nat → ℝ) (f : Nat) (hf : f < 3) :
    overRows (m a p r) f g = g vert f := by
  have e : overRows (m a p r) f g = ∑ v ∈ range 1, ∑ i ∈ range 3,
    if RowsV vert ∧ i = f then g vert i else 0 := rfl
  rw [e]
  interval_cases f <;> simp [isRow, sum_range_succ]

end ColumnWitness

/-- Without a boundary function the column at rest has no velocity. -/
example (s : VelSt) (f : Nat) (hf : f < 3) :
    (recoverVelocity (ColumnWitness.m 2 none none) s).vel f = 0 :=
  C132_rest_partial (ColumnWitness.ok _ _ _) (ColumnWitness.rows _ _ _) rfl 0
    (fun k => by simp [potential, ColumnWitness.m]) s hf (by norm_num [ColumnWitness.m])

/-- **C132 (negative).**  With the hydrostatic pressure as boundary function the column at rest is
given a velocity through its upper end. -/
theorem C132_violated : ∃ (m : VelIn) (p : Nat → ℝ) (gzf : Nat → ℝ) (f : Nat),
    VelOk m ∧ RowsSumZero m ∧ AtRest m p 1 0 gzf ∧ f < m.numFaces ∧ m.area f = 1 ∧
    ∀ s, (recoverVelocity m s).vel f = 3 := by
  refine ⟨ColumnWitness.m 1 (some fun f => -ColumnWitness.gzf f) none, _, ColumnWitness.gzf, 2,
    ColumnWitness.ok _ _ _, ColumnWitness.rows _ _ _, ColumnWitness.atRest _ _, by decide, rfl,
    fun s => ?_⟩
  have h := C131_sum_partial (ColumnWitness.ok 1 (some fun f => -ColumnWitness.gzf f) none) s (f := 2)
    (by decide) rfl (by norm_num [ColumnWitness.m]) (ColumnWitness.noCorner _ _ _ _)
  rw [ColumnWitness.overRows_eq _ _ _ _ _ (by omega)] at h
  have r := C132_rest_violated (v := 0) (i := 2)
    (ColumnWitness.rows 1 (some fun f => -ColumnWitness.gzf f) none)
    (ColumnWitness.atRest 1 none) (by decide) ColumnWitness.isRow (by decide)
  change rate _ ColumnWitness.vert 2 = 1*∑ k ∈ range 2, ColumnWitness.T 2 (2 + k)*
    ColumnWitness.gzf ((bndFaces _ ColumnWitness.vert)[k]?.getD (0, 0)).2 at r
  rw [ColumnWitness.bndFaces_eq] at r
  have r3 : ∑ k ∈ range 2, ColumnWitness.T 2 (2 + k)*
      ColumnWitness.gzf ((([(0, 1), (1, 2)] : List (Nat × Nat)))[k]?.getD (0, 0)).2 = 3 := by
    simp [sum_range_succ, ColumnWitness.T, ColumnWitness.gzf]
  rw [r3, one_mul] at r
  rw [r] at h
  have ha : (ColumnWitness.m 1 (some fun f => -ColumnWitness.gzf f) none).area 2 = 1 := rfl
  rw [ha, one_mul] at h
  exact h

namespace ColumnWitness

/-- The velocity function whose fluxes are the rates found above. -/
def exact : Nat → ℤ → Nat → ℝ := fun _ _ f => if f = 2 then 3 else 0

noncomputable def mx (area : ℝ) : VelIn := m area (some fun f => -gzf f) (some exact)

theorem rate_eq (a : ℝ) (i : Nat) (hi : i < 3) : rate (mx a) vert i = if i = 2 then 3 else 0 := by
  have r := C132_rest_violated (v := 0) (i := i) (rows a (some fun f => -gzf f) (some exact))
    (atRest a (some exact)) (show 0 < 1 by decide) isRow hi
  change rate (mx a) vert i = 1*∑ k ∈ range 2, T i (2 + k)*
    gzf ((bndFaces (m _ _ _) vert)[k]?.getD (0, 0)).2 at r
  rw [bndFaces_eq] at r
  rw [r]
  interval_cases i <;> simp [sum_range_succ, T, gzf]

theorem refExact (a : ℝ) : RefExact (mx a) exact :=
  ⟨rfl, fun v _ _ i hi c _ _ => (rate_eq a i hi).symm, fun _ _ _ i hi => by
    have h0 : i = 0 := by
      change i < 3 - 2 at hi
      omega
    subst h0
    exact ⟨le_refl 0, zero_le_one⟩, fun _ _ _ i hi hb _ => by
    change i < 3 at hi
    change 3 - 2 ≤ i at hb
    right
    interval_cases i
    · exact ⟨le_refl 0, rfl⟩
    · exact ⟨zero_le_one, rfl⟩⟩

end ColumnWitness

/-- Faces of area 1: no error. -/
example (s : VelSt) : (recoverVelocity (ColumnWitness.mx 1) s).err = 0 :=
  C133_unit_area_partial (ColumnWitness.ok ..) (ColumnWitness.refExact 1) (fun _ => rfl)
    (fun v _ h => absurd h.2 (show ¬(2:Nat) ≤ 1 by decide)) s

/-- **C133 (negative).**  For faces of area 3 exact fluxes are reported with an error: the velocity
of a subface is compared with the flux through it. -/
theorem C133_area_violated : ∃ (m : VelIn) (r : Nat → ℤ → Nat → ℝ), VelOk m ∧ RefExact m r ∧
    (∀ f, m.area f = 3) ∧ (∀ v < m.numVertices, ¬CornerV (m.vert v)) ∧
    ∀ s, (recoverVelocity m s).err = 4 ∧
      velReport [recoverVelocity m s] = some (Real.sqrt (4/3)) := by
  refine ⟨ColumnWitness.mx 3, ColumnWitness.exact, ColumnWitness.ok .., ColumnWitness.refExact 3,
    fun _ => rfl, fun v _ h => absurd h.2 (show ¬(2:Nat) ≤ 1 by decide), fun s => ?_⟩
  have hb : (bndFaces (ColumnWitness.mx 3) ColumnWitness.vert).length = ColumnWitness.vert.nBnd := by
    rw [ColumnWitness.mx, ColumnWitness.bndFaces_eq]; rfl
  have hs : ∀ i < 3, sharedPart (ColumnWitness.mx 3) ColumnWitness.vert i
      = if i = 2 then 1 else 0 := by
    intro i hi
    rw [sharedPart_eq _ _ _ hb, ColumnWitness.rate_eq 3 i hi]
    change _/(3:ℝ) = _
    split <;> norm_num
  have e : (recoverVelocity (ColumnWitness.mx 3) s).err
      = 0.0 + (sharedPart (ColumnWitness.mx 3) ColumnWitness.vert 0 - 0)^2 +
        (sharedPart (ColumnWitness.mx 3) ColumnWitness.vert 1 - 0)^2 +
        (sharedPart (ColumnWitness.mx 3) ColumnWitness.vert 2 - 3)^2 := rfl
  have n : (recoverVelocity (ColumnWitness.mx 3) s).n = 3 := rfl
  rw [hs 0 (by omega), hs 1 (by omega), hs 2 (by omega)] at e
  have e4 : (recoverVelocity (ColumnWitness.mx 3) s).err = 4 := by rw [e]; norm_num
  refine ⟨e4, ?_⟩
  simp [velReport, e4, n]

end TDy.Mpfao.Props
