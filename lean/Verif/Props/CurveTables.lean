import Verif.Proofs.CurveTables
import Mathlib.Tactic.NormNum

/-!
# C18, C19: evaluation of the registered models, on whole arrays and on lists of points

`runOps {} ops` is any state of a saturation (relative permeability) object reached by
registering models and evaluating on points.  The first type is Gardner (Irmay), the second van
Genuchten (Mualem).
-/

namespace TDy.Curves.Props

open TDy.Curves TDy.Curves.Proofs TDy.Curves.Spec

/-- The list registered last for a model type in a history of calls (most recent call last). -/
def lastSet (ty : Ty) : List Op → Option (Nat × (Nat → Nat) × (Nat → ℝ))
  | [] => none
  | .set ty' n pts prm :: ops =>
    (lastSet ty ops).or (if ty' = ty then some (n, pts, prm) else none)
  | .evalOnPoints :: ops => lastSet ty ops

/-- The stored table of a type. -/
def tableOf (s : Model2) : Ty → Table
  | .first => s.t0
  | .second => s.t1

/-- Registering points for one type replaces that type's list and leaves the other type's alone,
whatever was evaluated in between. -/
theorem C18_tables_are_last_set (ops : List Op) (ty : Ty) (n : Nat) (pts : Nat → Nat)
    (prm : Nat → ℝ) (h : lastSet ty ops = some (n, pts, prm)) :
    tableOf (runOps {} ops) ty = { num := n, points := pts, params := prm } := by
  suffices key : ∀ (ops : List Op) (s : Model2),
      tableOf (runOps s ops) ty = match lastSet ty ops with
          | some (n, pts, prm) => { num := n, points := pts, params := prm }
          | none => tableOf s ty by
    rw [key, h]
  intro ops
  induction ops with
  | nil => intro s; rfl
  | cons o ops ih =>
    intro s
    have e : runOps s (o :: ops) = runOps (match o with
      | .set ty num pts prm => setType s ty num pts prm
      | .evalOnPoints => withMaps s) ops := rfl
    rw [e, ih]
    cases o with
    | set ty' n pts prm =>
      simp only [lastSet]
      cases lastSet ty ops with
      | some x => rfl
      | none => cases ty <;> cases ty' <;> rfl
    | evalOnPoints =>
      simp only [lastSet]
      cases lastSet ty ops with
      | some x => rfl
      | none => cases ty <;> simp only [withMaps, tableOf] <;> split <;> rfl

/-- Non-vacuity: the first type is registered, evaluated, then the second type registered. -/
example : lastSet .first [.set .first 1 id (fun _ => 0), .evalOnPoints,
    .set .second 2 id (fun _ => 1)] = some (1, id, fun _ => 0) := rfl

/-- What `SaturationCompute` leaves at a point: the second type's last registration, else the
first type's, else the old contents.  (The order matters only for points registered with both.) -/
theorem C18_whole_array_value (s : Model2) (Sr Pc : Nat → ℝ) (out : Nat → Sat) (j : Nat) :
    (∀ i, IsLast s.t1.num s.t1.points j i →
      saturationCompute s Sr Pc out j =
        vanGenuchten (s.t1.params (2*i)) (s.t1.params (2*i+1)) (Sr j) (Pc j)) ∧
    (¬ Named s.t1.num s.t1.points j → ∀ i, IsLast s.t0.num s.t0.points j i →
      saturationCompute s Sr Pc out j =
        gardner (s.t0.params (3*i+1)) (s.t0.params (3*i+2)) (Sr j) (Pc j)) ∧
    (¬ Named s.t1.num s.t1.points j → ¬ Named s.t0.num s.t0.points j →
      saturationCompute s Sr Pc out j = out j) := by
  refine ⟨?_, ?_, ?_⟩
  · intro i h
    have := forN_last (fun i => evalVG s.t1.params i (Sr (s.t1.points i)) (Pc (s.t1.points i)))
      (forN s.t0.num (fun i o => wr o (s.t0.points i)
        (evalGardner s.t0.params i (Sr (s.t0.points i)) (Pc (s.t0.points i)))) out) h
    rw [h.2.1] at this
    exact this
  · intro h1 i h
    have e := forN_unnamed (fun i => evalVG s.t1.params i (Sr (s.t1.points i)) (Pc (s.t1.points i)))
      (forN s.t0.num (fun i o => wr o (s.t0.points i)
        (evalGardner s.t0.params i (Sr (s.t0.points i)) (Pc (s.t0.points i)))) out) h1
    have := forN_last
      (fun i => evalGardner s.t0.params i (Sr (s.t0.points i)) (Pc (s.t0.points i))) out h
    rw [h.2.1] at this
    exact e.trans this
  · intro h1 h0
    have e := forN_unnamed (fun i => evalVG s.t1.params i (Sr (s.t1.points i)) (Pc (s.t1.points i)))
      (forN s.t0.num (fun i o => wr o (s.t0.points i)
        (evalGardner s.t0.params i (Sr (s.t0.points i)) (Pc (s.t0.points i)))) out) h1
    exact e.trans (forN_unnamed
      (fun i => evalGardner s.t0.params i (Sr (s.t0.points i)) (Pc (s.t0.points i))) out h0)

/-- Partial C18: after every history, if no evaluated point is registered with both types and no
hash miss reads out of bounds, evaluation on a list of points is defined and gives at position `i`
what the whole-array evaluation gives at point `points i`; the stored tables do not change. -/
theorem C18_agreement_partial (missOob : Nat → Bool) (ops : List Op) (n : Nat)
    (points : Nat → Nat) (Sr Pc : Nat → ℝ) (out : Nat → Sat)
    (hdis : ∀ i, i < n → ¬ (Named (runOps {} ops).t0.num (runOps {} ops).t0.points (points i) ∧
      Named (runOps {} ops).t1.num (runOps {} ops).t1.points (points i)))
    (hm0 : (runOps {} ops).t0.num ≠ 0 → missOob (runOps {} ops).t0.num = false)
    (hm1 : (runOps {} ops).t1.num ≠ 0 → missOob (runOps {} ops).t1.num = false) :
    ∃ s' o, saturationOnPoints missOob (runOps {} ops) n points
        (fun i => Sr (points i)) (fun i => Pc (points i)) (fun i => out (points i)) = some (s', o) ∧
      s'.t0 = (runOps {} ops).t0 ∧ s'.t1 = (runOps {} ops).t1 ∧
      ∀ i, i < n → o i = saturationCompute (runOps {} ops) Sr Pc out (points i) := by
  classical
  have hok := mapsOk_history ops
  generalize runOps {} ops = s at *
  obtain ⟨em, e0, e1⟩ := withMaps_maps hok
  simp only [saturationOnPoints, em, e0, e1]
  obtain ⟨o, eo, ho, -⟩ := forN_some n
    (fun i => match lookup missOob (buildMap s.t0, buildMap s.t1) (points i) with
      | .inFirst j => some (evalGardner s.t0.params j (Sr (points i)) (Pc (points i)))
      | .inSecond j => some (evalVG s.t1.params j (Sr (points i)) (Pc (points i)))
      | _ => none) (fun i => out (points i))
    (fun i o =>
        match lookup missOob (buildMap s.t0, buildMap s.t1) (points i) with
        | .inFirst j => some (wr o i (evalGardner s.t0.params j (Sr (points i)) (Pc (points i))))
        | .inSecond j => some (wr o i (evalVG s.t1.params j (Sr (points i)) (Pc (points i))))
        | .unregistered => some o
        | .ub => none) (by
      intro i hi o
      by_cases h0 : Named s.t0.num s.t0.points (points i)
      · obtain ⟨k, hk⟩ := (named_iff_last _ _ _).1 h0
        rw [lookup_first hk]
      · by_cases h1 : Named s.t1.num s.t1.points (points i)
        · obtain ⟨k, hk⟩ := (named_iff_last _ _ _).1 h1
          rw [lookup_second h0 hm0 hk]
        · rw [lookup_none h0 hm0 h1 hm1])
  refine ⟨withMaps s, o, ?_, e0, e1, ?_⟩
  · rw [Option.map_eq_some_iff]
    exact ⟨o, eo, rfl⟩
  · intro i hi
    rw [ho i hi]
    obtain ⟨v1, v0, vn⟩ := C18_whole_array_value s Sr Pc out (points i)
    by_cases h0 : Named s.t0.num s.t0.points (points i)
    · obtain ⟨k, hk⟩ := (named_iff_last _ _ _).1 h0
      rw [lookup_first hk, v0 (fun h1 => hdis i hi ⟨h0, h1⟩) k hk]; rfl
    · by_cases h1 : Named s.t1.num s.t1.points (points i)
      · obtain ⟨k, hk⟩ := (named_iff_last _ _ _).1 h1
        rw [lookup_second h0 hm0 hk, v1 k hk]; rfl
      · rw [lookup_none h0 hm0 h1 hm1, vn h1 h0]; rfl

/-- The history registering one point with both types. -/
noncomputable def overlapHistory : List Op :=
  [.set .first 1 (fun _ => 0) (fun _ => 1), .set .second 1 (fun _ => 0) (fun _ => 1/2)]

/-- C18 fails on overlaps: for a point registered with both types the two evaluations use
different models, and the results differ. -/
theorem C18_overlap_disagrees (missOob : Nat → Bool) :
    ∃ s' o, saturationOnPoints missOob (runOps {} overlapHistory) 1 (fun _ => 0)
        (fun _ => 0) (fun _ => 2) (fun _ => ⟨0, 0, 0⟩) = some (s', o) ∧
      o 0 ≠ saturationCompute (runOps {} overlapHistory) (fun _ => 0) (fun _ => 2)
        (fun _ => ⟨0, 0, 0⟩) 0 := by
  refine ⟨_, _, rfl, ?_⟩
  have e : saturationCompute (runOps {} overlapHistory) (fun _ => 0) (fun _ => 2)
      (fun _ => ⟨0, 0, 0⟩) 0 = vanGenuchten (1/2) (1/2) 0 2 :=
    (C18_whole_array_value _ _ _ _ 0).1 0
      ⟨by decide, rfl, fun i' h1 h2 => by
        simp only [overlapHistory, runOps, List.foldl, setType] at h2; omega⟩
  rw [e]
  intro h
  have h' := congrArg Sat.S h
  have e1 : (vanGenuchten (1/2) (1/2) 0 2).S = (2:ℝ) ^ (-(1/2):ℝ) := by
    norm_num [vanGenuchten]
  rw [e1] at h'
  have e2 : (gardner 1 1 0 2).S = (2:ℝ) ^ (-(1/2):ℝ) := h'
  have e3 : (gardner 1 1 0 2).S = Real.exp (-2) := by
    norm_num [gardner]
  rw [e3] at e2
  have h2 : Real.exp (-2) < 1/2 := by
    have h1 := Real.add_one_lt_exp (x := 2) (by norm_num)
    rw [Real.exp_neg, inv_lt_comm₀ (Real.exp_pos _) (by norm_num)]
    linarith
  have h3 : (1/2:ℝ) ≤ (2:ℝ) ^ (-(1/2):ℝ) := by
    have : (2:ℝ) ^ (-1:ℝ) ≤ (2:ℝ) ^ (-(1/2):ℝ) :=
      Real.rpow_le_rpow_of_exponent_le (by norm_num) (by norm_num)
    rw [Real.rpow_neg_one] at this
    linarith
  linarith

/-- C18 fails on hash misses: whenever a miss in the first table reads past its flag array,
evaluating at a point registered only with the second type is undefined. -/
theorem C18_miss_undefined (missOob : Nat → Bool) (ops : List Op) (n : Nat) (points : Nat → Nat)
    (Sr Pc : Nat → ℝ) (out : Nat → Sat) (i : Nat) (hi : i < n)
    (h0 : (runOps {} ops).t0.num ≠ 0) (hmo : missOob (runOps {} ops).t0.num = true)
    (hnot : ¬ Named (runOps {} ops).t0.num (runOps {} ops).t0.points (points i)) :
    saturationOnPoints missOob (runOps {} ops) n points Sr Pc out = none := by
  have hok := mapsOk_history ops
  generalize runOps {} ops = s at *
  obtain ⟨em, e0, e1⟩ := withMaps_maps hok
  simp only [saturationOnPoints, em]
  rw [Option.map_eq_none_iff]
  have hl : lookup missOob (buildMap s.t0, buildMap s.t1) (points i) = .ub := by
    have hn : (buildMap s.t0).num = s.t0.num := rfl
    have he : (buildMap s.t0).nonEmpty = true := by simp [buildMap, h0]
    simp [lookup, he, buildMap_unnamed hnot, hn, hmo]
  have key := forN_invariant n
    (fun k (o : Option (Nat → Sat)) =>
      o.bind fun o =>
        match lookup missOob (buildMap s.t0, buildMap s.t1) (points k) with
        | .inFirst j => some (wr o k (evalGardner (withMaps s).t0.params j (Sr k) (Pc k)))
        | .inSecond j => some (wr o k (evalVG (withMaps s).t1.params j (Sr k) (Pc k)))
        | .unregistered => some o
        | .ub => none)
    (some out) (fun k o => i < k → o = none)
    (fun h => by omega) (by
      intro k o hk hI hik
      rcases Nat.lt_succ_iff_lt_or_eq.1 hik with h' | h'
      · rw [hI h']; rfl
      · subst h'
        cases o with
        | none => rfl
        | some o => simp only [Option.bind_some, hl])
  exact key hi

/-- Non-vacuity of C18: disjoint registrations with both types used. -/
example : ∃ ops : List Op, (runOps {} ops).t0.num = 1 ∧ (runOps {} ops).t1.num = 1 ∧
    (runOps {} ops).t0.points 0 = 4 ∧ (runOps {} ops).t1.points 0 = 7 :=
  ⟨[.set .first 1 (fun _ => 4) (fun _ => 1), .evalOnPoints,
    .set .second 1 (fun _ => 7) (fun _ => 1/2)], rfl, rfl, rfl, rfl⟩

/-! ## C19 -/

/-- C19 fails: if every registered point has an index at or beyond the lengths of both lists,
`RelativePermeabilityCompute` writes nothing at any registered point. -/
theorem C19_points_ignored (s : Model2) (Se : Nat → ℝ) (out : Nat → Kr) (j : Nat)
    (h0 : s.t0.num ≤ j) (h1 : s.t1.num ≤ j) : relPermCompute s Se out j = out j := by
  simp only [relPermCompute]
  rw [forN_fill, if_neg (by omega), forN_fill, if_neg (by omega)]

/-- Witness: one Irmay point with index 1. -/
example : ∃ s : Model2, Named s.t0.num s.t0.points 1 ∧ s.t0.num ≤ 1 ∧ s.t1.num ≤ 1 :=
  ⟨setType {} .first 1 (fun _ => 1) (fun _ => 2), ⟨0, by decide, rfl⟩, by decide, by decide⟩

/-- Partial C19: if a single type is registered, on points 0, 1, 2, ..., in order, every
registered point gets its own value. -/
theorem C19_identity_points_partial (s : Model2) (Se : Nat → ℝ) (out : Nat → Kr) :
    (s.t1.num = 0 → (∀ i, i < s.t0.num → s.t0.points i = i) → ∀ i, i < s.t0.num →
      relPermCompute s Se out (s.t0.points i) = irmay (s.t0.params i) (Se (s.t0.points i))) ∧
    (s.t0.num = 0 → (∀ i, i < s.t1.num → s.t1.points i = i) → ∀ i, i < s.t1.num →
      relPermCompute s Se out (s.t1.points i) =
        mualem (s.t1.params (9*i)) (s.t1.params (9*i+1)) (s.t1.params (9*i+2))
          (s.t1.params (9*i+4)) (fun k => s.t1.params (9*i+5+k)) (Se (s.t1.points i))) := by
  constructor
  · intro h1 hp i hi
    rw [hp i hi]
    simp only [relPermCompute]
    rw [forN_fill, if_neg (by omega), forN_fill, if_pos hi]; rfl
  · intro h1 hp i hi
    rw [hp i hi]
    simp only [relPermCompute]
    rw [forN_fill, if_pos hi]; rfl

/-- Evaluation on a list of points, unlike the whole-array evaluation, does use the registered
points: after every history, at a point registered with one type only the last registration's
parameters are used (no lookup reading out of bounds). -/
theorem C19_on_points_partial (missOob : Nat → Bool) (ops : List Op) (n : Nat)
    (points : Nat → Nat) (Se : Nat → ℝ) (out : Nat → Kr)
    (hm0 : (runOps {} ops).t0.num ≠ 0 → missOob (runOps {} ops).t0.num = false)
    (hm1 : (runOps {} ops).t1.num ≠ 0 → missOob (runOps {} ops).t1.num = false) :
    ∃ s' o, relPermOnPoints missOob (runOps {} ops) n points Se out = some (s', o) ∧
      ∀ i, i < n →
        (∀ k, IsLast (runOps {} ops).t0.num (runOps {} ops).t0.points (points i) k →
          o i = irmay ((runOps {} ops).t0.params k) (Se i)) ∧
        (¬ Named (runOps {} ops).t0.num (runOps {} ops).t0.points (points i) →
          ∀ k, IsLast (runOps {} ops).t1.num (runOps {} ops).t1.points (points i) k →
          o i = mualem ((runOps {} ops).t1.params (9*k)) ((runOps {} ops).t1.params (9*k+1))
            ((runOps {} ops).t1.params (9*k+2)) ((runOps {} ops).t1.params (9*k+4))
            (fun l => (runOps {} ops).t1.params (9*k+5+l)) (Se i)) := by
  classical
  have hok := mapsOk_history ops
  generalize runOps {} ops = s at *
  obtain ⟨em, e0, e1⟩ := withMaps_maps hok
  simp only [relPermOnPoints, em, e0, e1]
  obtain ⟨o, eo, ho, -⟩ := forN_some n
    (fun i => match lookup missOob (buildMap s.t0, buildMap s.t1) (points i) with
      | .inFirst j => some (evalIrmay s.t0.params j (Se i))
      | .inSecond j => some (evalMualem s.t1.params j (Se i))
      | _ => none) out
    (fun i o =>
        match lookup missOob (buildMap s.t0, buildMap s.t1) (points i) with
        | .inFirst j => some (wr o i (evalIrmay s.t0.params j (Se i)))
        | .inSecond j => some (wr o i (evalMualem s.t1.params j (Se i)))
        | .unregistered => some o
        | .ub => none) (by
      intro i hi o
      by_cases h0 : Named s.t0.num s.t0.points (points i)
      · obtain ⟨k, hk⟩ := (named_iff_last _ _ _).1 h0
        rw [lookup_first hk]
      · by_cases h1 : Named s.t1.num s.t1.points (points i)
        · obtain ⟨k, hk⟩ := (named_iff_last _ _ _).1 h1
          rw [lookup_second h0 hm0 hk]
        · rw [lookup_none h0 hm0 h1 hm1])
  refine ⟨withMaps s, o, ?_, ?_⟩
  · rw [Option.map_eq_some_iff]
    exact ⟨o, eo, rfl⟩
  · intro i hi
    constructor
    · intro k hk
      rw [ho i hi, lookup_first hk]; rfl
    · intro h0 k hk
      rw [ho i hi, lookup_second h0 hm0 hk]; rfl

end TDy.Curves.Props
