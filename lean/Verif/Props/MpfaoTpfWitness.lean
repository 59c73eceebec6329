import Verif.Props.MpfaoTpfHeat
import Mathlib.Tactic.FinCases
import Mathlib.Tactic.IntervalCases

/-! # The two-point option of MPFA-O: witnesses for C134 to C138 -/

namespace TDy.Mpfao.Props

open TDy.Mpfao.Spec TDy.Mpfao.Proofs Tpf

namespace TpfWitness

/-- The faces of the two cells of `Witness`: 0 between them, 1 and 2 on the boundary of cell 0, 3 and
4 on the boundary of cell 1. -/
def sides : Nat → MFace
  | 0 => ⟨0, 1, true⟩ | 1 => ⟨-1, 0, true⟩ | 2 => ⟨0, -2, true⟩ | 3 => ⟨1, -3, true⟩
  | _ => ⟨-4, 1, true⟩

/-- Two cells with tensors `K 0` and `K 1`. -/
noncomputable def ctx (fc cen normal : Nat → Geo.P3) (K : Nat → Matrix (Fin 3) (Fin 3) ℝ) (tpf : Bool) :
    GravCtx where
  numVertices := 1
  numCells := 2
  vLocal := fun _ => true
  nFaces := fun _ => 5
  vFace := fun _ i => i
  vSub := fun _ _ => 0
  face := sides
  cellCen := cen
  faceCen := fc
  normal := normal
  area := fun _ => 1
  faceVerts := fun _ => 4
  nSub := 8
  cellVertex := fun _ s => s
  cellFace := fun _ _ d => d
  K0 := fun n => K (n/9) ⟨n % 9 / 3, by omega⟩ ⟨n % 3, by omega⟩
  gravity := ⟨0, 0, 9.8⟩
  neumann := false
  tpf := tpf

theorem tensor_eq (fc cen normal K t) (c : Nat) : tensor (ctx fc cen normal K t) c = K c := by
  ext i j
  simp only [tensor, ctx, Matrix.of_apply]
  have := i.2
  have := j.2
  have e1 : (c*9 + i.1*3 + j.1)/9 = c := by omega
  have e2 : (c*9 + i.1*3 + j.1) % 9/3 = i := by omega
  have e3 : (c*9 + i.1*3 + j.1) % 3 = j := by omega
  simp only [e1, e2, e3]

/-- The vertex between the two cells with matrices `G`. -/
noncomputable def vtx (G : Nat → Nat → Nat → ℝ) : Vtx :=
  { Witness.v with sub := fun i => { Witness.v.sub i with G := G i } }

theorem wf (G) : WellFormed (vtx G) where
  sub_inj := Witness.wf.sub_inj
  face_inj := Witness.wf.face_inj
  paired := Witness.wf.paired
  bnd_once := Witness.wf.bnd_once
  internal_face := Witness.wf.internal_face
  link_iff := Witness.wf.link_iff
  link_lt := Witness.wf.link_lt
  link_onto := Witness.wf.link_onto
  nBnd_eq := Witness.wf.nBnd_eq
  nFaces_eq := Witness.wf.nFaces_eq

/-- Subcell `i` is in cell `i`. -/
abbrev cell (i : Nat) : Nat := i

theorem around (G fc cen normal K t) : Around (vtx G) (ctx fc cen normal K t) cell where
  side := by
    have : ∀ i < 2, ∀ f < 3, (sides (Witness.faces i f)).up = i ∨ (sides (Witness.faces i f)).dn = i := by
      decide
    exact fun i f h => this i h.1 f h.2
  bnd := by
    have : ∀ i < 2, ∀ f < 3, (f == 0) = false →
      (sides (Witness.faces i f)).up < 0 ∨ (sides (Witness.faces i f)).dn < 0 := by decide
    exact fun i f h hb => this i h.1 f h.2 hb
  cells := fun _ _ _ _ e => e
  proper := by
    intro f
    simp only [ctx]
    rcases f with _ | _ | _ | _ | f <;> simp [sides]

/-- The matrices of the two-point option. -/
noncomputable def tpfOf (m : GravCtx) (area : Nat → ℝ) (i f k : Nat) : ℝ :=
  tpfG m area i (Witness.faces i) f k

theorem from_tpf (m : GravCtx) (area) : FromTpf (vtx (tpfOf m area)) m cell area :=
  fun _ _ _ _ _ => rfl

/-- Every face of the vertex has a row. -/
theorem row (G) : ∃ r, RowOf (vtx G) r 0 := by
  obtain ⟨r, hr, -⟩ := (C47_rows (wf G)).2 0 0 ⟨Nat.zero_lt_two, by decide⟩
  exact ⟨r, hr⟩

theorem bnd_face (G) (i f : Nat) (h : InRange (vtx G) i f) (hb : ((vtx G).sub i).internal f = false) :
    ((vtx G).sub i).bnd f + 1 = ((vtx G).sub i).face f := by
  have : ∀ i < 2, ∀ f < 3, (f == 0) = false → Witness.faces i f - 1 + 1 = Witness.faces i f := by decide
  exact this i h.1 f h.2 hb

theorem in0 (G) : InRange (vtx G) 0 0 := ⟨Nat.zero_lt_two, by decide⟩
theorem in1 (G) : InRange (vtx G) 1 0 := ⟨Nat.one_lt_two, by decide⟩

theorem sqrt_unit : Real.sqrt 1 = 1 := Real.sqrt_one
theorem sqrt_quarter : Real.sqrt (1/4) = 1/2 := by
  rw [show (1/4:ℝ) = (1/2)^2 by norm_num, Real.sqrt_sq (by norm_num)]
theorem sqrt_slanted : Real.sqrt (25/64) = 5/8 := by
  rw [show (25/64:ℝ) = (5/8)^2 by norm_num, Real.sqrt_sq (by norm_num)]

/-- The same tensor `diag(k, k, k)` everywhere in a cell. -/
noncomputable def iso (k : Nat → ℝ) (c : Nat) : Matrix (Fin 3) (Fin 3) ℝ :=
  Matrix.of fun a b => if a = b then k c else 0

/-- Permeabilities 1 and 3. -/
noncomputable def k13 (c : Nat) : ℝ := if c = 0 then 1 else 3

theorem k13_pos (c : Nat) : 0 < k13 c := by unfold k13; split <;> norm_num

/-! ## Cubes side by side -/

noncomputable def pair (k : Nat → ℝ) : GravCtx :=
  ctx Witness.fc Witness.cen Witness.normal (iso k) true

/-- The vertex between them. -/
noncomputable def pairVtx (k : Nat → ℝ) : Vtx := vtx (tpfOf (pair k) Witness.area)

theorem pair_wf (k) : WellFormed (pairVtx k) := wf _

theorem ok_pair {k : Nat → ℝ} (hk : ∀ c, 0 < k c) :
    TpfOk (pairVtx k) (pair k) cell Witness.area where
  pos := by intro i _ a; unfold pair; rw [tensor_eq]; simp [iso, hk]
  apart := by
    rintro i f ⟨h1, h2⟩
    change i < 2 at h1
    interval_cases i <;> interval_cases f <;>
      simp [pointUp, pointDn, pair, ctx, pairVtx, vtx, Witness.v, Witness.faces, sides, Witness.cen, Witness.fc] <;>
      norm_num
  crosses := by
    rintro i f ⟨h1, h2⟩
    change i < 2 at h1
    interval_cases i <;> interval_cases f <;>
      (simp [direction, Geo.dot, Geo.unitJoin, Geo.unit, Geo.join, Geo.norm,
        pointUp, pointDn, pair, ctx, pairVtx, vtx, Witness.v, Witness.faces, sides, Witness.cen, Witness.fc,
        Witness.normal] <;> norm_num)
  area := by intro i f _; norm_num [Witness.area]

theorem direction_pair (k) : direction (pair k) 0 = ⟨1, 0, 0⟩ := by
  simp [direction, Geo.unitJoin, Geo.unit, Geo.join, Geo.norm, pointUp, pointDn, pair, ctx, sides,
    Witness.cen]
  norm_num

theorem distance_pair (k) : distance (pair k) 0 = 1 := by
  simp [distance, Geo.join, Geo.norm, pointUp, pointDn, pair, ctx, sides, Witness.cen]
  norm_num

theorem along_pair (k) (c : Nat) : along (pair k) c ⟨1, 0, 0⟩ = k c := by
  unfold along pair
  rw [tensor_eq]
  simp [iso]

theorem pair_around (k) : Around (pairVtx k) (pair k) cell := around _ _ _ _ _ _
theorem pair_from (k) : FromTpf (pairVtx k) (pair k) cell Witness.area := from_tpf _ _

theorem orthogonal_pair (k : Nat → ℝ) : ∀ i f, InRange (pairVtx k) i f →
    KOrthogonal (pair k) 0 (((pairVtx k).sub i).face f) := by
  rintro i f ⟨h1, h2⟩
  change i < 2 at h1
  unfold KOrthogonal times pair
  rw [tensor_eq]
  interval_cases i <;> interval_cases f
  · refine ⟨k 0, ?_⟩
    simp [pointUp, pointDn, ctx, pairVtx, vtx, Witness.v, Witness.faces, sides, Witness.cen, Witness.fc,
      Witness.normal, iso]
    norm_num
  · refine ⟨2*k 0, ?_⟩
    simp [pointUp, pointDn, ctx, pairVtx, vtx, Witness.v, Witness.faces, sides, Witness.cen, Witness.fc,
      Witness.normal, iso]
    ring
  · refine ⟨2*k 0, ?_⟩
    simp [pointUp, pointDn, ctx, pairVtx, vtx, Witness.v, Witness.faces, sides, Witness.cen, Witness.fc,
      Witness.normal, iso]
    ring
  · refine ⟨k 0, ?_⟩
    simp [pointUp, pointDn, ctx, pairVtx, vtx, Witness.v, Witness.faces, sides, Witness.cen, Witness.fc,
      Witness.normal, iso]
    norm_num
  · refine ⟨2*k 0, ?_⟩
    simp [pointUp, pointDn, ctx, pairVtx, vtx, Witness.v, Witness.faces, sides, Witness.cen, Witness.fc,
      Witness.normal, iso]
    ring
  · refine ⟨2*k 0, ?_⟩
    simp [pointUp, pointDn, ctx, pairVtx, vtx, Witness.v, Witness.faces, sides, Witness.cen, Witness.fc,
      Witness.normal, iso]
    ring

end TpfWitness

open TpfWitness

/-- C134 and C136: between cubes of permeabilities 1 and 3 the pressures 0 and 1 drive
`(1/4) (1+3)/2 = 1/2` through the quarter of the face, more than the `3/8` of two halves in series. -/
example : ∃ T r, trans (pairVtx k13) = some T ∧ RowOf (pairVtx k13) r 0 ∧
    transTimes _ T (fun i => if i = 0 then 0 else 1) (fun _ => 0) r = 1/2 ∧
    (1/4)*series 1 3 < transTimes _ T (fun i => if i = 0 then 0 else 1) (fun _ => 0) r := by
  have ok := ok_pair k13_pos
  obtain ⟨T, hT⟩ := C134_accepted (pair_wf k13) (pair_around k13) ok (pair_from k13)
  obtain ⟨r, hr⟩ : ∃ r, RowOf (pairVtx k13) r 0 := row _
  have e := C134_internal (pair_wf k13) (pair_around k13) ok (pair_from k13) hT
    (fun i => if i = 0 then 0 else 1) (fun _ => 0) (i := 0) (f := 0) (i' := 1) (f' := 0) (x := 0)
    (in0 _) (in1 _) rfl rfl rfl rfl rfl hr
  have l := C136_violated (pair_wf k13) (pair_around k13) ok (pair_from k13) hT
    (fun i => if i = 0 then 0 else 1) (fun _ => 0) (i := 0) (f := 0) (i' := 1) (f' := 0) (x := 0)
    (in0 _) (in1 _) rfl rfl rfl rfl rfl hr
  rw [direction_pair, distance_pair, along_pair, along_pair] at e l
  have n0 : (pair k13).normal 0 = ⟨1, 0, 0⟩ := rfl
  rw [n0] at e l
  have e' : transTimes _ T (fun i => if i = 0 then 0 else 1) (fun _ => 0) r = 1/2 := by
    rw [e]; simp [Geo.dot, Witness.area, k13]; norm_num
  refine ⟨T, r, hT, hr, e', ?_⟩
  replace l := l (by simp [k13]) (by norm_num)
  rw [e'] at l ⊢
  norm_num [series]

/-- C135, C136 and C137 in a uniform medium: the pressure `x` drives `k/4` through the face, and a
fluid at rest does not flow. -/
example (k : ℝ) (hk : 0 < k) : ∃ T r, trans (pairVtx fun _ => k) = some T ∧
    RowOf (pairVtx fun _ => k) r 0 ∧
    transTimes _ T (fun i => Geo.dot ⟨1, 0, 0⟩ (Witness.cen i) + 0)
      (fun b => Geo.dot ⟨1, 0, 0⟩ (Witness.fc (b + 1)) + 0) r = k/4 ∧
    ∀ c, denAvg c (sides 0) = 2 → fluxm c (sides 0)
      (transTimes _ T (fun i => 5 - 2*gz (pair fun _ => k) (Witness.cen i))
        (fun b => 5 - 2*gz (pair fun _ => k) (Witness.fc (b + 1))) r)
      (gravDis (pair fun _ => k) 0 (1/4)) = 0 := by
  have ok := ok_pair (k := fun _ => k) (fun _ => hk)
  have ar := pair_around (fun _ => k)
  have ft := pair_from (fun _ => k)
  have one : OneTensor (pairVtx fun _ => k) (pair fun _ => k) cell := by
    intro i _; unfold pair; rw [tensor_eq, tensor_eq]; rfl
  obtain ⟨T, hT⟩ := C134_accepted (pair_wf _) ar ok ft
  obtain ⟨r, hr⟩ : ∃ r, RowOf (pairVtx fun _ => k) r 0 := row _
  have bnd : ∀ (φ : Geo.P3 → ℝ) i f, InRange (pairVtx fun _ => k) i f →
      ((pairVtx fun _ => k).sub i).internal f = false →
      φ (Witness.fc (((pairVtx fun _ => k).sub i).bnd f + 1))
        = φ (Witness.fc (((pairVtx fun _ => k).sub i).face f)) :=
    fun φ i f h hb => congrArg (fun x => φ (Witness.fc x)) (bnd_face _ i f h hb)
  refine ⟨T, r, hT, hr, ?_, fun c hc => ?_⟩
  · rw [C135_diagonal_partial (pair_wf _) ar ok ft one ?_ (orthogonal_pair _) hT rfl (g := ⟨1, 0, 0⟩) (b := 0)
      (u := fun i => Geo.dot ⟨1, 0, 0⟩ (Witness.cen i) + 0)
      (pb := fun b => Geo.dot ⟨1, 0, 0⟩ (Witness.fc (b + 1)) + 0) ⟨fun _ _ => rfl, fun i f h hb => bnd (fun p => Geo.dot ⟨1, 0, 0⟩ p + 0) i f h hb⟩ hr]
    · unfold times pair
      rw [tensor_eq]
      simp [Geo.dot, Witness.area, ctx, Witness.normal, iso]; ring
    · intro a b hab; unfold pair; rw [tensor_eq]; simp [iso, hab]
  · exact C137_two_point_partial (pair_wf _) ar ok ft rfl hT (ρ := 2) (p0 := 5)
      ⟨fun i _ => by simp [pair, ctx], fun i f h hb => by
        have := bnd (fun p => 5 - 2*gz (pair fun _ => k) p) i f h hb
        simp only at this
        rw [this]; simp [pair, ctx]⟩ one rfl hr c hc

namespace TpfWitness

/-! ## Cubes on top of each other -/

def swap (p : Geo.P3) : Geo.P3 := ⟨p.z, p.y, p.x⟩

noncomputable def stack (k : Nat → ℝ) : GravCtx :=
  ctx (fun f => swap (Witness.fc f)) (fun c => swap (Witness.cen c)) (fun f => swap (Witness.normal f))
    (iso k) true

noncomputable def stackVtx (k : Nat → ℝ) : Vtx := vtx (tpfOf (stack k) Witness.area)

theorem stack_wf (k) : WellFormed (stackVtx k) := wf _
theorem stack_around (k) : Around (stackVtx k) (stack k) cell := around _ _ _ _ _ _
theorem stack_from (k) : FromTpf (stackVtx k) (stack k) cell Witness.area := from_tpf _ _

theorem ok_stack {k : Nat → ℝ} (hk : ∀ c, 0 < k c) :
    TpfOk (stackVtx k) (stack k) cell Witness.area where
  pos := by intro i _ a; unfold stack; rw [tensor_eq]; simp [iso, hk]
  apart := by
    rintro i f ⟨h1, h2⟩
    change i < 2 at h1
    interval_cases i <;> interval_cases f <;>
      simp [pointUp, pointDn, stack, ctx, stackVtx, vtx, Witness.v, Witness.faces, sides, Witness.cen, Witness.fc,
        swap] <;>
      norm_num
  crosses := by
    rintro i f ⟨h1, h2⟩
    change i < 2 at h1
    interval_cases i <;> interval_cases f <;>
      (simp [direction, Geo.dot, Geo.unitJoin, Geo.unit, Geo.join, Geo.norm,
        pointUp, pointDn, stack, ctx, stackVtx, vtx, Witness.v, Witness.faces, sides, Witness.cen, Witness.fc,
        Witness.normal, swap] <;> norm_num)
  area := by intro i f _; norm_num [Witness.area]

theorem direction_stack (k) : direction (stack k) 0 = ⟨0, 0, 1⟩ := by
  simp [direction, Geo.unitJoin, Geo.unit, Geo.join, Geo.norm, pointUp, pointDn, stack, ctx, sides,
    Witness.cen, swap]
  norm_num

theorem along_stack (k) (c : Nat) : along (stack k) c ⟨0, 0, 1⟩ = k c := by
  unfold along stack
  rw [tensor_eq]
  simp [iso]

theorem perm_stack : permTPF (stack k13) 0 = 3/2 := by
  have e : permTPF (stack k13) 0 = _ := C58_two_point (m := stack k13) (f := 0) (up := 0) (dn := 1)
    (.inl ⟨rfl, rfl⟩)
    (by intro c _ i; unfold stack; rw [tensor_eq]; simp [iso, k13_pos])
    ((ok_stack k13_pos).apart 0 0 ⟨by decide, by decide⟩) _ rfl
  have w : weight (stack k13) 0 = 1/2 := by
    simp [weight, sideDistance, stack, ctx, sides, Witness.fc, Witness.cen, swap]
    norm_num
    have : (0:ℝ) < (√4)⁻¹ := by positivity
    field_simp
    norm_num
  have u : upDown (stack k13) 0 = ⟨0, 0, 1⟩ := direction_stack _
  rw [e, w, u]
  unfold stack
  rw [tensor_eq, tensor_eq]
  simp [iso, k13]
  norm_num

/-- Water of density 1, viscosity 1 and relative permeability 1 everywhere. -/
noncomputable def water : Ctx where
  numVertices := 1
  numCells := 2
  numBnd := 4
  vert := fun _ => ⟨true, 0, fun _ => 0, fun _ => 0, fun _ => 0, 0, fun _ => 0, fun _ _ => 0, 0, fun _ => 0, fun _ _ => 0⟩
  face := sides
  isLocal := fun _ => true
  vol := fun _ => 1
  por := fun _ => 1
  source := fun _ => 0
  cells := fun _ => ⟨0, 1, 1, 1, 1, 0, 0, 0, 0⟩
  d2S := fun _ => 0
  d2rho := fun _ => 0
  bnds := fun _ => ⟨0, 1, 1, 1, 1, 0, 0, 0, 0⟩
  bc := .dirichlet
  Pref := 0
  grav := fun _ => 0

theorem den_water (f) : denAvg water f = 1 := by
  unfold denAvg side water
  norm_num

theorem flux_water (f : MFace) (TP G : ℝ) : fluxm water f TP G = -driving water f TP G := by
  have s : ¬ shut water f TP G := by
    unfold shut
    have : water.bc = .dirichlet := rfl
    rw [this]
    split <;> simp
  have k : ukvr water f TP G = 1 := by
    unfold ukvr side water
    norm_num
  unfold fluxm driving
  rw [if_neg s, k, den_water]
  ring

end TpfWitness

/-- **C137** fails with the two-point option for layers of permeabilities 1 and 3 on top of each
other: a fluid at rest flows through the face between them. -/
theorem C137_layers_violated : ∃ (v : Vtx) (m : GravCtx) (cell : Nat → Nat) (area : Nat → ℝ)
    (T : Nat → Fin (v.npcen + nDir v) → ℝ) (u pb : Nat → ℝ) (p0 : ℝ) (c : Ctx) (r x : Nat),
    WellFormed v ∧ Around v m cell ∧ TpfOk v m cell area ∧ FromTpf v m cell area ∧ m.tpf = true ∧
    trans v = some T ∧ v.dirichlet = true ∧ AtRest v m cell 1 p0 u pb ∧ RowOf v r x ∧
    denAvg c (m.face x) = 1 ∧
    fluxm c (m.face x) (transTimes v T u pb r) (gravDis m x (area x)) ≠ 0 := by
  have ok := ok_stack k13_pos
  obtain ⟨T, hT⟩ := C134_accepted (stack_wf _) (stack_around k13) ok (stack_from k13)
  obtain ⟨r, hr⟩ : ∃ r, RowOf (stackVtx k13) r 0 := row _
  have rest : AtRest (stackVtx k13) (stack k13) cell 1 0 (fun i => -gz (stack k13) (swap (Witness.cen i)))
      (fun b => -gz (stack k13) (swap (Witness.fc (b + 1)))) := by
    refine ⟨fun i _ => by simp [stack, ctx], ?_⟩
    intro i f h hb
    have : ((stackVtx k13).sub i).bnd f + 1 = ((stackVtx k13).sub i).face f := bnd_face _ i f h hb
    simp only
    rw [this]; simp [stack, ctx]
  refine ⟨stackVtx k13, stack k13, cell, Witness.area, T, _, _, 0, water, r, 0, wf _, stack_around k13, ok,
    stack_from k13, rfl, hT, rfl, rest, hr, den_water _, ?_⟩
  rw [flux_water, C137_two_point_formula (stack_wf _) (stack_around k13) ok (stack_from k13) rfl hT rest
    (i := 0) (f := 0) (i' := 1) (f' := 0) (x := 0) (in0 _) (in1 _)
    rfl rfl rfl rfl rfl hr water (den_water _), direction_stack, along_stack, along_stack, perm_stack]
  simp [gz, stack, ctx, Geo.dot, swap, Witness.normal, Witness.area, k13]
  norm_num

namespace TpfWitness

/-! ## The default method with a tensor that is not diagonal -/

/-- Gravity drives flow along `x` in this medium. -/
def Kxz : Matrix (Fin 3) (Fin 3) ℝ := !![2, 0, 1; 0, 1, 0; 1, 0, 2]

noncomputable def tilted : GravCtx :=
  ctx Witness.fc Witness.cen Witness.normal (fun _ => Kxz) false

noncomputable def tiltedG (i f k : Nat) : ℝ := if h : f < 3 ∧ k < 3 then
  gMatrix (fun a b => Kxz a b) Witness.area Witness.normal Witness.fc (Witness.cen i)
    (fun m => Witness.faces i m) ⟨f, h.1⟩ ⟨k, h.2⟩ else 0

theorem solvable_tilted : ∃ T, trans (vtx tiltedG) = some T := by
  cases h : trans (vtx tiltedG) with
  | some T => exact ⟨T, rfl⟩
  | none =>
    exfalso
    obtain ⟨p, hp, i, f, ⟨h1, h2⟩, hne⟩ := (C47_refused_iff (wf _)).1 h
    have hb : ∀ i f, InRange (vtx tiltedG) i f → f ≠ 0 → p (Witness.faces i f) = 0 := by
      intro i f hr hf
      have := hp.boundary i f hr (by simpa [vtx, Witness.v] using hf)
      simpa [vtx, Witness.v] using this
    have h0 : p 0 = 0 := by
      have c := hp.continuous 0 0 1 0 ⟨by decide, by decide⟩ ⟨by decide, by decide⟩ rfl rfl
      have b1 := hb 0 1 ⟨by decide, by decide⟩ (by decide)
      have b2 := hb 0 2 ⟨by decide, by decide⟩ (by decide)
      have b3 := hb 1 1 ⟨by decide, by decide⟩ (by decide)
      have b4 := hb 1 2 ⟨by decide, by decide⟩ (by decide)
      simp only [Witness.faces] at b1 b2 b3 b4
      simp only [oneSided, Finset.sum_range_succ, Finset.sum_range_zero] at c
      simp [vtx, tiltedG, Witness.v, Witness.faces, b1, b2, b3, b4, gMatrix, entryOfG, nuVector, subcellT,
        Geo.tetVolume, Geo.normalTriangle, Geo.cross, Geo.join, Geo.dot, Witness.fc, Witness.cen,
        Witness.normal, Witness.area, Kxz] at c
      norm_num at c
      linarith
    change i < 2 at h1
    by_cases hf : f = 0
    · subst hf; apply hne
      interval_cases i <;> exact h0
    · exact hne (hb i f ⟨h1, h2⟩ hf)

end TpfWitness

/-- **C137** fails with the default method in a uniform medium whose axes are not those of the grid:
a fluid at rest flows through the face between two cubes of equal height. -/
theorem C137_default_violated : ∃ (v : Vtx) (m : GravCtx) (cell : Nat → Nat) (area : Nat → ℝ)
    (T : Nat → Fin (v.npcen + nDir v) → ℝ) (u pb : Nat → ℝ) (p0 : ℝ) (c : Ctx) (r x : Nat)
    (vtx : Geo.P3) (order : Nat → Fin 3 → Nat),
    WellFormed v ∧ Around v m cell ∧ m.tpf = false ∧ OneTensor v m cell ∧
    trans v = some T ∧ v.dirichlet = true ∧ AtRest v m cell 1 p0 u pb ∧ RowOf v r x ∧
    (∀ i, i < v.npcen → ∀ k : Fin 3,
      (v.sub i).face k = orientFaces m.faceCen (m.cellCen (cell i)) vtx (order i) k) ∧
    (∀ i, i < v.npcen → Separates m.faceCen (m.cellCen (cell i)) vtx (order i)) ∧
    (∀ i, i < v.npcen → ∀ ii jj : Fin 3, (v.sub i).G ii jj
      = gMatrix (fun a b => tensor m (cell i) a b) area m.normal m.faceCen (m.cellCen (cell i))
        (fun k => (v.sub i).face k) ii jj) ∧
    denAvg c (m.face x) = 1 ∧
    fluxm c (m.face x) (transTimes v T u pb r) (gravDis m x (area x)) ≠ 0 := by
  obtain ⟨T, hT⟩ := solvable_tilted
  obtain ⟨r, hr⟩ := row tiltedG
  have hG : ∀ i, i < (vtx tiltedG).npcen → ∀ ii jj : Fin 3, ((vtx tiltedG).sub i).G ii jj
      = gMatrix (fun a b => Kxz a b) Witness.area Witness.normal Witness.fc (Witness.cen i)
        (fun k => ((vtx tiltedG).sub i).face k) ii jj := by
    intro i _ ii jj
    change tiltedG i ii jj = _
    unfold tiltedG
    rw [dif_pos ⟨ii.2, jj.2⟩]
    rfl
  have tens : ∀ c, tensor tilted c = Kxz := fun c => tensor_eq _ _ _ _ _ c
  refine ⟨vtx tiltedG, tilted, cell, Witness.area, T,
    fun i => Geo.dot ⟨0, 0, -9.8⟩ (Witness.cen i) + 0,
    fun b => Geo.dot ⟨0, 0, -9.8⟩ (Witness.fc (b + 1)) + 0, 0, water, r, 0, Witness.vtx, Witness.order,
    wf _, around _ _ _ _ _ _, rfl, fun i _ => by rw [tens, tens], hT, rfl, ⟨?_, ?_⟩, hr,
    Witness.oriented, Witness.separates, fun i hi ii jj => by rw [hG i hi]; simp only [tens]; rfl,
    den_water _, ?_⟩
  · intro i _
    simp [gz, tilted, ctx, Geo.dot]
    rw [abs_of_nonneg (by norm_num)]; ring
  · intro i f h hb
    simp only
    rw [bnd_face _ i f h hb]
    simp [gz, tilted, ctx, Geo.dot]
    rw [abs_of_nonneg (by norm_num)]; ring
  · rw [flux_water]
    unfold driving
    rw [C92_linear_exact (wf _) hT (fun a b => Kxz a b) Witness.area Witness.normal Witness.fc Witness.cen
      Witness.vtx Witness.order Witness.oriented Witness.separates hG ⟨0, 0, -9.8⟩ 0 _
      (fun i f h hb => ⟨rfl, by rw [bnd_face _ i f h hb]⟩) hr, den_water, gravDis_eq]
    have u : upDown tilted 0 = ⟨1, 0, 0⟩ := by
      simp [upDown, sidePoint, Geo.unitJoin, Geo.unit, Geo.join, Geo.norm, tilted, ctx, sides,
        Witness.cen]
      norm_num
    unfold coefficient
    rw [u]
    simp [tilted, ctx, Witness.area, Geo.dot, Witness.normal, mulK, Kxz]
    norm_num

namespace TpfWitness

noncomputable def plain : GravCtx :=
  ctx Witness.fc Witness.cen Witness.normal (fun _ => 1) false

noncomputable def plainG (i f k : Nat) : ℝ := if h : f < 3 ∧ k < 3 then
  gMatrix (fun a b => (1 : Matrix (Fin 3) (Fin 3) ℝ) a b) Witness.area Witness.normal Witness.fc
    (Witness.cen i) (fun m => Witness.faces i m) ⟨f, h.1⟩ ⟨k, h.2⟩ else 0

theorem solvable_plain : ∃ T, trans (vtx plainG) = some T := by
  cases h : trans (vtx plainG) with
  | some T => exact ⟨T, rfl⟩
  | none =>
    exfalso
    obtain ⟨p, hp, i, f, ⟨h1, h2⟩, hne⟩ := (C47_refused_iff (wf _)).1 h
    have hb : ∀ i f, InRange (vtx plainG) i f → f ≠ 0 → p (Witness.faces i f) = 0 := by
      intro i f hr hf
      have := hp.boundary i f hr (by simpa [vtx, Witness.v] using hf)
      simpa [vtx, Witness.v] using this
    have h0 : p 0 = 0 := by
      have c := hp.continuous 0 0 1 0 ⟨by decide, by decide⟩ ⟨by decide, by decide⟩ rfl rfl
      have b1 := hb 0 1 ⟨by decide, by decide⟩ (by decide)
      have b2 := hb 0 2 ⟨by decide, by decide⟩ (by decide)
      have b3 := hb 1 1 ⟨by decide, by decide⟩ (by decide)
      have b4 := hb 1 2 ⟨by decide, by decide⟩ (by decide)
      simp only [Witness.faces] at b1 b2 b3 b4
      simp only [oneSided, Finset.sum_range_succ, Finset.sum_range_zero] at c
      simp [vtx, plainG, Witness.v, Witness.faces, b1, b2, b3, b4, gMatrix, entryOfG, nuVector, subcellT,
        Geo.tetVolume, Geo.normalTriangle, Geo.cross, Geo.join, Geo.dot, Witness.fc, Witness.cen,
        Witness.normal, Witness.area] at c
      norm_num at c
      linarith
    change i < 2 at h1
    by_cases hf : f = 0
    · subst hf; apply hne
      interval_cases i <;> exact h0
    · exact hne (hb i f ⟨h1, h2⟩ hf)

end TpfWitness

/-- C137 with the default method: cubes side by side with the unit tensor. -/
example : ∃ T r, trans (vtx plainG) = some T ∧ RowOf (vtx plainG) r 0 ∧
    ∀ c, denAvg c (sides 0) = 2 → fluxm c (sides 0)
      (transTimes _ T (fun i => 5 - 2*gz plain (Witness.cen i))
        (fun b => 5 - 2*gz plain (Witness.fc (b + 1))) r)
      (gravDis plain 0 (1/4)) = 0 := by
  obtain ⟨T, hT⟩ := solvable_plain
  obtain ⟨r, hr⟩ := row plainG
  have tens : ∀ c, tensor plain c = 1 := fun c => tensor_eq _ _ _ _ _ c
  have hG : ∀ i, i < (vtx plainG).npcen → ∀ ii jj : Fin 3, ((vtx plainG).sub i).G ii jj
      = gMatrix (fun a b => tensor plain (cell i) a b) Witness.area Witness.normal Witness.fc (Witness.cen i)
        (fun k => ((vtx plainG).sub i).face k) ii jj := by
    intro i _ ii jj
    rw [tens]
    change plainG i ii jj = _
    unfold plainG
    rw [dif_pos ⟨ii.2, jj.2⟩]
    rfl
  refine ⟨T, r, hT, hr, fun c hc => ?_⟩
  refine C137_default_partial (m := plain) (area := Witness.area) (cell := cell) (vtx := Witness.vtx)
    (order := Witness.order) (wf _) (around _ _ _ _ _ _) rfl hT Witness.oriented Witness.separates hG
    (fun i _ => by rw [tens, tens]) ?_ ?_ ?_ ?_ ?_ (ρ := 2) (p0 := 5)
    ⟨fun i _ => by simp [plain, ctx], fun i f h hb => ?_⟩ rfl hr c hc
  · rw [tens]; exact Matrix.PosDef.one
  · intro i j
    rw [tens, Matrix.one_apply]
    split
    · right; norm_num [Geo.machineEps]
    · left; rfl
  · rintro i f ⟨h1, h2⟩
    change i < 2 at h1
    interval_cases i <;> interval_cases f <;>
      simp [pointUp, pointDn, plain, ctx, vtx, Witness.v, Witness.faces, sides, Witness.cen, Witness.fc] <;>
      norm_num
  · rintro i f ⟨h1, h2⟩
    change i < 2 at h1
    interval_cases i <;> interval_cases f <;>
      simp [plain, ctx, vtx, Witness.v, Witness.faces, Witness.cen, Witness.fc] <;> norm_num
  · rintro i f ⟨h1, h2⟩
    change i < 2 at h1
    unfold KOrthogonal times
    rw [tens]
    interval_cases i <;> interval_cases f
    · refine ⟨1, ?_⟩
      simp [pointUp, pointDn, plain, ctx, vtx, Witness.v, Witness.faces, sides, Witness.cen, Witness.normal]
      norm_num
    · refine ⟨2, ?_⟩
      simp [pointUp, pointDn, plain, ctx, vtx, Witness.v, Witness.faces, sides, Witness.cen, Witness.fc, Witness.normal]
    · refine ⟨2, ?_⟩
      simp [pointUp, pointDn, plain, ctx, vtx, Witness.v, Witness.faces, sides, Witness.cen, Witness.fc, Witness.normal]
    · refine ⟨1, ?_⟩
      simp [pointUp, pointDn, plain, ctx, vtx, Witness.v, Witness.faces, sides, Witness.cen, Witness.normal]
      norm_num
    · refine ⟨2, ?_⟩
      simp [pointUp, pointDn, plain, ctx, vtx, Witness.v, Witness.faces, sides, Witness.cen, Witness.fc, Witness.normal]
    · refine ⟨2, ?_⟩
      simp [pointUp, pointDn, plain, ctx, vtx, Witness.v, Witness.faces, sides, Witness.cen, Witness.fc, Witness.normal]
  · rw [bnd_face _ i f h hb]; simp [plain, ctx]

namespace TpfWitness

/-! ## Slanted cells -/

/-- Centroids of two cells with slanted sides; the grid is K-orthogonal for `Kxy`. -/
noncomputable def fcS : Nat → Geo.P3
  | 0 => ⟨11/8, 1/2, 1/2⟩ | 1 => ⟨1/2, 0, 1/2⟩ | 2 => ⟨7/8, 1/2, 0⟩ | 3 => ⟨3/2, 0, 1/2⟩
  | _ => ⟨15/8, 1/2, 0⟩
noncomputable def cenS : Nat → Geo.P3
  | 0 => ⟨7/8, 1/2, 1/2⟩ | _ => ⟨15/8, 1/2, 1/2⟩
noncomputable def normalS : Nat → Geo.P3
  | 0 => ⟨4/5, -3/5, 0⟩ | 1 => ⟨0, 1, 0⟩ | 2 => ⟨0, 0, -1⟩ | 3 => ⟨0, -1, 0⟩ | _ => ⟨0, 0, 1⟩
def Kxy : Matrix (Fin 3) (Fin 3) ℝ := !![5, 3, 0; 3, 4, 0; 0, 0, 1]

noncomputable def slanted : GravCtx := ctx fcS cenS normalS (fun _ => Kxy) true

noncomputable def slantedVtx : Vtx := vtx (tpfOf slanted Witness.area)

theorem slanted_wf : WellFormed slantedVtx := wf _
theorem slanted_around : Around slantedVtx slanted cell := around _ _ _ _ _ _
theorem slanted_from : FromTpf slantedVtx slanted cell Witness.area := from_tpf _ _

theorem slanted_tensor (c) : tensor slanted c = Kxy := tensor_eq _ _ _ _ _ c

theorem ok_slanted : TpfOk slantedVtx slanted cell Witness.area where
  pos := by
    intro i _ a
    rw [slanted_tensor]
    fin_cases a <;> simp [Kxy]
  apart := by
    rintro i f ⟨h1, h2⟩
    change i < 2 at h1
    interval_cases i <;> interval_cases f <;>
      simp [pointUp, pointDn, slanted, slantedVtx, ctx, vtx, Witness.v, Witness.faces, sides, cenS, fcS] <;>
      norm_num
  crosses := by
    rintro i f ⟨h1, h2⟩
    change i < 2 at h1
    interval_cases i <;> interval_cases f <;>
      (simp [direction, Geo.dot, Geo.unitJoin, Geo.unit, Geo.join, Geo.norm,
        pointUp, pointDn, slanted, slantedVtx, ctx, vtx, Witness.v, Witness.faces, sides, cenS, fcS,
        normalS] <;> norm_num)
  area := by intro i f _; norm_num [Witness.area]

theorem orthogonal_slanted : ∀ i f, InRange slantedVtx i f →
    KOrthogonal slanted 0 ((slantedVtx.sub i).face f) := by
  rintro i f ⟨h1, h2⟩
  change i < 2 at h1
  unfold KOrthogonal times
  rw [slanted_tensor]
  interval_cases i <;> interval_cases f
  · refine ⟨11/5, ?_⟩
    simp [pointUp, pointDn, slanted, ctx, slantedVtx, vtx, Witness.v, Witness.faces, sides, cenS, fcS,
      normalS, Kxy]
    norm_num
  · refine ⟨2, ?_⟩
    simp [pointUp, pointDn, slanted, ctx, slantedVtx, vtx, Witness.v, Witness.faces, sides, cenS, fcS,
      normalS, Kxy]
  · refine ⟨8, ?_⟩
    simp [pointUp, pointDn, slanted, ctx, slantedVtx, vtx, Witness.v, Witness.faces, sides, cenS, fcS,
      normalS, Kxy]
    norm_num
  · refine ⟨11/5, ?_⟩
    simp [pointUp, pointDn, slanted, ctx, slantedVtx, vtx, Witness.v, Witness.faces, sides, cenS, fcS,
      normalS, Kxy]
    norm_num
  · refine ⟨8, ?_⟩
    simp [pointUp, pointDn, slanted, ctx, slantedVtx, vtx, Witness.v, Witness.faces, sides, cenS, fcS,
      normalS, Kxy]
    norm_num
  · refine ⟨2, ?_⟩
    simp [pointUp, pointDn, slanted, ctx, slantedVtx, vtx, Witness.v, Witness.faces, sides, cenS, fcS,
      normalS, Kxy]

end TpfWitness

/-- **C135** fails for a tensor with off-diagonal entries, although the grid is K-orthogonal for it:
the flux of a linear pressure through the face between the cells is wrong. -/
theorem C135_violated : ∃ (v : Vtx) (m : GravCtx) (cell : Nat → Nat) (area : Nat → ℝ)
    (T : Nat → Fin (v.npcen + nDir v) → ℝ) (u pb : Nat → ℝ) (g : Geo.P3) (b : ℝ) (r x : Nat),
    WellFormed v ∧ Around v m cell ∧ TpfOk v m cell area ∧ FromTpf v m cell area ∧
    OneTensor v m cell ∧ (∀ i f, InRange v i f → KOrthogonal m (cell 0) ((v.sub i).face f)) ∧
    (tensor m (cell 0)).PosDef ∧
    trans v = some T ∧ v.dirichlet = true ∧ Linear v m cell g b u pb ∧ RowOf v r x ∧
    transTimes v T u pb r ≠ area x*Geo.dot (m.normal x) (times m (cell 0) g) := by
  obtain ⟨T, hT⟩ := C134_accepted slanted_wf slanted_around ok_slanted slanted_from
  obtain ⟨r, hr⟩ : ∃ r, RowOf slantedVtx r 0 := row _
  refine ⟨slantedVtx, slanted, cell, Witness.area, T, fun i => Geo.dot ⟨1, 0, 0⟩ (cenS i) + 0,
    fun b => Geo.dot ⟨1, 0, 0⟩ (fcS (b + 1)) + 0, ⟨1, 0, 0⟩, 0, r, 0, wf _, around _ _ _ _ _ _, ok_slanted,
    from_tpf _ _, fun i _ => by rw [slanted_tensor, slanted_tensor], orthogonal_slanted, ?_, hT, rfl,
    ⟨fun _ _ => rfl, ?_⟩, hr, ?_⟩
  · rw [slanted_tensor]
    refine Matrix.PosDef.of_dotProduct_mulVec_pos ?_ ?_
    · ext a b; fin_cases a <;> fin_cases b <;> simp [Kxy]
    · intro w hw
      have : 0 < 5*w 0^2 + 6*w 0*w 1 + 4*w 1^2 + w 2^2 := by
        by_contra hc
        apply hw
        have e1 : w 1 = 0 := by nlinarith [sq_nonneg (5*w 0 + 3*w 1), sq_nonneg (w 1), sq_nonneg (w 2)]
        have e2 : w 0 = 0 := by nlinarith [sq_nonneg (5*w 0 + 3*w 1), sq_nonneg (w 0), sq_nonneg (w 2)]
        have e3 : w 2 = 0 := by nlinarith [sq_nonneg (5*w 0 + 3*w 1), sq_nonneg (w 1), sq_nonneg (w 2)]
        funext a; fin_cases a <;> assumption
      simp [dotProduct, Matrix.mulVec, Fin.sum_univ_three, Kxy]
      linarith
  · rintro i f ⟨h1, h2⟩ hb
    change i < 2 at h1
    interval_cases i <;> interval_cases f <;> first | exact absurd hb (by decide) | rfl
  · rw [C134_internal slanted_wf slanted_around ok_slanted slanted_from hT _ _
      (i := 0) (f := 0) (i' := 1) (f' := 0) (x := 0)
      (in0 _) (in1 _) rfl rfl rfl rfl rfl hr]
    have d : direction slanted 0 = ⟨1, 0, 0⟩ := by
      simp [direction, Geo.unitJoin, Geo.unit, Geo.join, Geo.norm, pointUp, pointDn, slanted, ctx, sides,
        cenS]
      norm_num
    have l : distance slanted 0 = 1 := by
      simp [distance, Geo.join, Geo.norm, pointUp, pointDn, slanted, ctx, sides, cenS]
      norm_num
    unfold along times
    rw [d, l, slanted_tensor, slanted_tensor]
    simp [slanted, ctx, normalS, cenS, Geo.dot, Kxy, Witness.area]
    norm_num

namespace TpfWitness

/-! ## Heat -/

/-- Conductivity 1 in cell 0 and 3 in cell 1, in all directions. -/
noncomputable def kap (n : Nat) : ℝ := if n % 9 / 3 = n % 3 then k13 (n/9) else 0

theorem kap_eq (c : Nat) (a b : Fin 3) : kappa kap c a b = if a = b then k13 c else 0 := by
  have := a.2
  have := b.2
  unfold kappa kap
  rw [show (c*9 + a.1*3 + b.1)/9 = c by omega, show (c*9 + a.1*3 + b.1) % 9/3 = a by omega,
    show (c*9 + a.1*3 + b.1) % 3 = b by omega]
  simp [Fin.ext_iff]

/-- Conductivity 1. -/
noncomputable def kap1 (n : Nat) : ℝ := if n % 9 / 3 = n % 3 then 1 else 0

theorem kap1_iso (c : Nat) : Isotropic kap1 c 1 := by
  intro a b
  have := a.2
  have := b.2
  unfold kappa kap1
  rw [show (c*9 + a.1*3 + b.1) % 9/3 = a by omega, show (c*9 + a.1*3 + b.1) % 3 = b by omega]
  simp [Fin.ext_iff]

noncomputable def heatVtx (m : GravCtx) (K : Nat → ℝ) : Vtx :=
  vtx fun i f k => tpfTempG m K Witness.area i (Witness.faces i) 1 f k

theorem heat_wf (m K) : WellFormed (heatVtx m K) := wf _
theorem heat_from (m K) : FromTempTpf (heatVtx m K) m K cell Witness.area (fun _ => 1) :=
  fun _ _ _ _ _ => rfl

/-- The cubes mirrored: cell 1 lies to the left of cell 0. -/
def mirror (p : Geo.P3) : Geo.P3 := ⟨-p.x, p.y, p.z⟩

noncomputable def mirrored : GravCtx :=
  ctx (fun f => mirror (Witness.fc f)) (fun c => mirror (Witness.cen c))
    (fun f => mirror (Witness.normal f)) (fun _ => 1) true

theorem mirrored_apart : ∀ i f, InRange (heatVtx mirrored kap1) i f →
    pointUp mirrored (((heatVtx mirrored kap1).sub i).face f)
      ≠ pointDn mirrored (((heatVtx mirrored kap1).sub i).face f) := by
  rintro i f ⟨h1, h2⟩
  change i < 2 at h1
  interval_cases i <;> interval_cases f <;>
    simp [pointUp, pointDn, mirrored, ctx, heatVtx, vtx, Witness.v, Witness.faces, sides, Witness.cen,
      Witness.fc, mirror] <;> norm_num

theorem mirrored_crosses : ∀ i f, InRange (heatVtx mirrored kap1) i f →
    Geo.dot (mirrored.normal (((heatVtx mirrored kap1).sub i).face f))
      (direction mirrored (((heatVtx mirrored kap1).sub i).face f)) ≠ 0 := by
  rintro i f ⟨h1, h2⟩
  change i < 2 at h1
  interval_cases i <;> interval_cases f <;>
    (simp [direction, Geo.dot, Geo.unitJoin, Geo.unit, Geo.join, Geo.norm,
        pointUp, pointDn, mirrored, ctx, heatVtx, vtx, Witness.v, Witness.faces, sides, Witness.cen,
        Witness.fc, Witness.normal, mirror] <;> norm_num)

theorem mirrored_direction : direction mirrored 0 = ⟨-1, 0, 0⟩ := by
  simp [direction, Geo.unitJoin, Geo.unit, Geo.join, Geo.norm, pointUp, pointDn, mirrored, ctx, sides,
    Witness.cen, mirror]
  norm_num

end TpfWitness

/-- C138: between cubes of conductivities 1 and 3, side by side, heat is conducted as it should. -/
example : ∃ T r, trans (heatVtx (pair k13) kap) = some T ∧ RowOf (heatVtx (pair k13) kap) r 0 ∧
    transTimes _ T (fun i => if i = 0 then 0 else 1) (fun _ => 0) r = (1/4)*series 1 3 := by
  have ok := ok_pair k13_pos
  have ar : Around (heatVtx (pair k13) kap) (pair k13) cell := around _ _ _ _ _ _
  have iso1 : ∀ c, Isotropic kap c (k13 c) := fun c => kap_eq c
  obtain ⟨T, hT⟩ := C138_accepted (heat_wf _ _) ar (heat_from (pair k13) kap) (fun _ _ => one_ne_zero) rfl
    ok.area ok.crosses ok.apart (fun i f i' h hI hi' => by
      have : f = 0 := by simpa [heatVtx, vtx, Witness.v] using hI
      subst this
      have hf : ((heatVtx (pair k13) kap).sub i).face 0 = 0 := by
        have h1 : i < 2 := h.1
        interval_cases i <;> rfl
      rw [diagonalSum_iso (iso1 _), diagonalSum_iso (iso1 _), hf]
      have := k13_pos i
      have := k13_pos i'
      simp [pair, ctx, Witness.normal]
      positivity)
  obtain ⟨r, hr⟩ : ∃ r, RowOf (heatVtx (pair k13) kap) r 0 := row _
  refine ⟨T, r, hT, hr, ?_⟩
  rw [C138_axis_partial (heat_wf _ _) ar (heat_from (pair k13) kap) (fun _ _ => one_ne_zero) hT _ _
    (i := 0) (f := 0) (i' := 1) (f' := 0) (x := 0) (k := 0) (in0 _) (in1 _) rfl rfl rfl rfl rfl hr
    (by norm_num [Witness.area]) (ok.crosses 0 0 (in0 _)) (ok.apart 0 0 (in0 _))
    (by intro a; fin_cases a <;> simp [comp, pair, ctx, Witness.normal])
    (fun j _ => ⟨fun a b hab => by rw [kap_eq, if_neg hab], by rw [kap_eq, if_pos rfl]; exact k13_pos j⟩),
    direction_pair, distance_pair, kap_eq, kap_eq]
  simp [pair, ctx, Witness.normal, Geo.dot, Witness.area, k13]

/-- C138 violated on the boundary: the outside of face 3 is hotter than cell 1 and the heat goes from
the cell into it. -/
example {T} (hT : trans (heatVtx (pair k13) kap) = some T) : ∃ r, RowOf (heatVtx (pair k13) kap) r 3 ∧
    transTimes _ T (fun _ => 0) (fun _ => 1) r < 0 := by
  obtain ⟨r, hr, -⟩ := (C47_rows (heat_wf (pair k13) kap)).2 1 1 ⟨Nat.one_lt_two, by decide⟩
  replace hr : RowOf (heatVtx (pair k13) kap) r 3 := hr
  have ar : Around (heatVtx (pair k13) kap) (pair k13) cell := around _ _ _ _ _ _
  refine ⟨r, hr, C138_boundary_violated (heat_wf _ _) ar (heat_from (pair k13) kap)
    (fun _ _ => one_ne_zero) hT _ _ (i := 1) (f := 1) (x := 3) (k := 3) ⟨Nat.one_lt_two, by decide⟩ rfl rfl
    rfl hr (by norm_num [Witness.area]) ?_ ((ok_pair k13_pos).apart 1 1 ⟨Nat.one_lt_two, by decide⟩)
    (by norm_num) (kap_eq 1) ?_ (by rw [if_pos (show ((pair k13).face 3).up = cell 1 from rfl)]; norm_num)⟩
  · have d : direction (pair k13) 3 = ⟨0, -1, 0⟩ := by
      simp [direction, Geo.unitJoin, Geo.unit, Geo.join, Geo.norm, pointUp, pointDn, pair, ctx, sides,
        Witness.cen, Witness.fc]
    rw [d]; simp [pair, ctx, Witness.normal, Geo.dot]
  · simp [pair, ctx, Witness.normal]

/-- C138 violated, on the mirrored cubes: cell 1 is hotter than cell 0 and the heat goes from cell 0
into it. -/
example : ∃ T r, trans (heatVtx mirrored kap1) = some T ∧ RowOf (heatVtx mirrored kap1) r 0 ∧
    transTimes _ T (fun i => if i = 0 then 0 else 1) (fun _ => 0) r < 0 := by
  have ar : Around (heatVtx mirrored kap1) mirrored cell := around _ _ _ _ _ _
  obtain ⟨T, hT⟩ := C138_accepted (heat_wf _ _) ar (heat_from mirrored kap1) (fun _ _ => one_ne_zero) rfl
    (fun _ _ _ => by norm_num [Witness.area]) mirrored_crosses mirrored_apart (fun i f i' h hI hi' => by
      have : f = 0 := by simpa [heatVtx, vtx, Witness.v] using hI
      subst this
      have hf : ((heatVtx mirrored kap1).sub i).face 0 = 0 := by
        have h1 : i < 2 := h.1
        interval_cases i <;> rfl
      rw [diagonalSum_iso (kap1_iso _), diagonalSum_iso (kap1_iso _), hf]
      simp [mirrored, ctx, Witness.normal, mirror])
  obtain ⟨r, hr⟩ : ∃ r, RowOf (heatVtx mirrored kap1) r 0 := row _
  refine ⟨T, r, hT, hr, ?_⟩
  exact C138_reversed_violated (heat_wf _ _) ar (heat_from mirrored kap1) (fun _ _ => one_ne_zero) hT _ _
    (i := 0) (f := 0) (i' := 1) (f' := 0) (x := 0) (k := 1) (in0 _) (in1 _) rfl rfl rfl rfl rfl hr
    (by norm_num [Witness.area])
    (by rw [mirrored_direction]; simp [mirrored, ctx, Witness.normal, mirror, Geo.dot])
    (mirrored_apart 0 0 (in0 _)) one_pos
    (fun j _ => kap1_iso j) (by simp [mirrored, ctx, Witness.normal, mirror]) (by norm_num)

end TDy.Mpfao.Props
