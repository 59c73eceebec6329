import Verif.Proofs.StateBoundary
import Verif.Props.State

/-! # C127 : states of the boundary faces of MPFA-O -/

namespace TDy.State.Props

open TDy.Curves TDy.Eos TDy.State TDy.State.Spec TDy.State.Proofs

noncomputable section

/-- The boundary values and states a residual evaluation produces: the boundary values are set, then the
states of the boundary faces are computed from the pressures.  For every boundary face, the array of
boundary values and the entry behind the cells of the vector hold the value of the boundary function at
the face, or, without a function, that of its cell, and the entries of the cells are kept; saturation
and relative permeability are those of the curves at that pressure, with the residual saturation of the
face's cell. -/
theorem C127_boundary_states_partial {o : Options} (ho : Sound o) {nc : Nat} {cc : CC} (hcc : Reached o nc cc)
    (mo : Nat → Bool) (x : Ctx) {nFaces nBnd : Nat} {face : Nat → BFace}
    (hn : Numbered nFaces nc nBnd face) :
    ∃ kr dkr, SmoothedMualem o kr dkr ∧
      ∀ (given : Option (Nat → ℝ)) (cellValue vec : Nat → ℝ) (junkS : Nat → Sat) (junkK : Nat → Kr)
        (b : Bnd),
      ∃ a', setBoundary nFaces nc nBnd face given cellValue (b.P, vec) = .ok a' ∧
        (∀ j < nc, a'.2 j = vec j) ∧
        ∃ cc' b', updateBoundaryState mo cc x nFaces nBnd face junkS junkK { b with P := a'.1 }
            = some (cc', b') ∧ Reached o nc cc' ∧
          ∀ i < nFaces, ∀ c k, IsBoundary (face i) c k →
            let v := given.elim (cellValue c) (fun g => g i)
            let S := vgSaturation o.m o.alpha (x.Sr c) (x.Pref - v)
            b'.P k = v ∧ a'.2 (nc + k) = v ∧ (b'.sat k).S = S ∧
            (b'.kr k).k = kr ((S - x.Sr c)/(1 - x.Sr c)) ∧
            (b'.kr k).dk = dkr ((S - x.Sr c)/(1 - x.Sr c))/(1 - x.Sr c) := by
  obtain ⟨q, hq, hsm⟩ := mualem_smoothed ho
  refine ⟨_, _, hsm, fun given cellValue vec junkS junkK b => ?_⟩
  obtain ⟨a', ea, h1, h2⟩ := setBoundary_done hn given cellValue (b.P, vec)
  obtain ⟨b', eb, hP, -, -, hb⟩ := boundary_done hcc q hq mo x hn junkS junkK { b with P := a'.1 }
  refine ⟨a', ea, h2, _, b', eb, .eval hcc, fun i hi c k hik => ?_⟩
  obtain ⟨g1, g2⟩ := h1 i hi c k hik
  obtain ⟨s1, s2⟩ := hb i hi c k hik
  have ev : given.elim (cellValue c) (fun g => g i)
      = (given.map (· i)).getD (cellValue c) := by cases given <;> rfl
  rw [ev]
  dsimp only at s1 ⊢
  rw [g1] at s1
  have hS := congrArg Sat.S s1
  rw [vanGenuchten_S] at hS
  rw [s2]
  dsimp only
  rw [hP, hS]
  exact ⟨g1, g2, rfl, rfl, by ring⟩

/-- The stored slope of the saturation of a boundary face is the derivative with respect to its
pressure. -/
theorem C127_boundary_slope {o : Options} (ho : Sound o) {nc : Nat} {cc : CC} (hcc : Reached o nc cc)
    (mo : Nat → Bool) (x : Ctx) {nFaces nBnd : Nat} {face : Nat → BFace}
    (hn : Numbered nFaces nc nBnd face) (junkS : Nat → Sat) (junkK : Nat → Kr) (b : Bnd) :
    ∃ cc' b', updateBoundaryState mo cc x nFaces nBnd face junkS junkK b = some (cc', b') ∧
      ∀ i < nFaces, ∀ c k, IsBoundary (face i) c k →
        HasDerivAt (fun p => vgSaturation o.m o.alpha (x.Sr c) (x.Pref - p)) (b'.sat k).dS (b.P k) := by
  obtain ⟨q, hq, -⟩ := mualem_smoothed ho
  obtain ⟨b', eb, -, -, -, hb⟩ := boundary_done hcc q hq mo x hn junkS junkK b
  refine ⟨_, b', eb, fun i hi c k hik => ?_⟩
  rw [(hb i hi c k hik).1]
  have := Curves.Props.C13_first_derivative (Sr := x.Sr c) (Pref := x.Pref) ho.m0 ho.m1 ho.alpha (b.P k)
  simpa only [vanGenuchten_S] using this

/-- Two cells in a line with boundary faces at both ends. -/
def line : Nat → BFace
  | 0 => ⟨false, -1, 0⟩
  | 1 => ⟨true, 0, 1⟩
  | _ => ⟨false, 1, -2⟩

theorem line_numbered : Numbered 3 2 2 line := by
  constructor
  · intro i hi hf
    interval_cases i
    · exact ⟨0, by decide, 0, by decide, rfl, Or.inr ⟨rfl, rfl⟩⟩
    · simp [line] at hf
    · exact ⟨1, by decide, 1, by decide, rfl, Or.inl ⟨rfl, rfl⟩⟩
  · intro i hi j hj c c' b h h'
    interval_cases i <;> interval_cases j <;> simp only [IsBoundary, line] at h h' <;>
      first | rfl | omega

/-- Non-vacuity of C127: the line, default options. -/
example : ∃ cc, Reached defaults 2 cc ∧ Numbered 3 2 2 line ∧ IsBoundary (line 2) 1 1 := by
  obtain ⟨cc, h⟩ := C122_setup defaults_sound 2
  exact ⟨cc, .setup h, line_numbered, rfl, Or.inl ⟨rfl, rfl⟩⟩

/-- The density of the water at a boundary face is not that at the boundary pressure: after setup, and
after a residual evaluation with a boundary function, it is still that at the reference pressure. -/
theorem C127_violated :
    ∃ (o : Options) (cc cc' : CC) (x : Ctx) (given vec : Nat → ℝ) (b b0 b' : Bnd)
      (a' : (Nat → ℝ) × (Nat → ℝ)),
      Sound o ∧ Reached o 2 cc ∧ x.density = .exponential ∧ initBoundary x 2 0 b = .ok b0 ∧
      setBoundary 3 2 2 line (some given) vec (b0.P, vec) = .ok a' ∧
      updateBoundaryState (fun _ => false) cc x 3 2 line (fun _ => ⟨0, 0, 0⟩) (fun _ => ⟨0, 0⟩)
        { b0 with P := a'.1 } = some (cc', b') ∧
      b'.P 1 = given 2 ∧
      (waterDensity x.density (b'.P 1) x.Tref 0).map Out.v ≠ some (b'.rho 1) := by
  obtain ⟨cc, h⟩ := C122_setup defaults_sound 2
  let x : Ctx := { sand with density := .exponential }
  let b : Bnd := ⟨fun _ => 0, fun _ => ⟨0, 0, 0⟩, fun _ => ⟨0, 0⟩, fun _ => 0, fun _ => 0⟩
  obtain ⟨q, hq, hsm⟩ := mualem_smoothed defaults_sound
  have e0 : ∃ b0, initBoundary x 2 0 b = .ok b0 ∧ b0.rho 1 = 997.16 := by
    obtain ⟨b0, e, h⟩ := initBoundary_done x 2 0 b (d := densityExponential 101325) rfl rfl
    refine ⟨b0, e, ?_⟩
    rw [(h 1 (by decide)).1]
    simp [densityExponential]
  obtain ⟨b0, e0, hrho⟩ := e0
  obtain ⟨a', ea, h1, h2⟩ := setBoundary_done line_numbered (some fun _ => 201325) (fun _ => 0)
    (b0.P, fun _ => 0)
  obtain ⟨b', eb, hP, hr, -, -⟩ := boundary_done (.setup h) q hq (fun _ => false) x line_numbered
    (fun _ => ⟨0, 0, 0⟩) (fun _ => ⟨0, 0⟩) { b0 with P := a'.1 }
  have hp : b'.P 1 = 201325 := by
    rw [hP]; exact (h1 2 (by decide) 1 1 ⟨rfl, Or.inl ⟨rfl, rfl⟩⟩).1
  refine ⟨defaults, cc, _, x, fun _ => 201325, fun _ => 0, b, b0, b', a', defaults_sound, .setup h, rfl,
    e0, ea, eb, hp, ?_⟩
  rw [hr, hp]
  dsimp only
  rw [hrho]
  simp only [waterDensity, x, Option.map_some, ne_eq, Option.some.injEq, densityExponential]
  rw [if_neg (by norm_num)]
  dsimp only
  intro e
  have h3 : (1:ℝ) < Real.exp (1e-8*(201325 - 101325)) := by
    rw [Real.one_lt_exp_iff]; norm_num
  have : Real.exp (1e-8*(201325 - 101325)) = 1 := by
    have h4 : (997.16:ℝ) ≠ 0 := by norm_num
    field_simp at e
    exact e
  linarith

end

end TDy.State.Props
