import Verif.Model.Curves
import Verif.Spec.CurveTables

/-! # Helper lemmas for the point tables (C18, C19) -/

namespace TDy.Curves.Proofs

open TDy.Curves TDy.Curves.Spec

/-- The last entry naming a point exists iff it is named. -/
theorem named_iff_last (n : Nat) (pts : Nat → Nat) (j : Nat) :
    Named n pts j ↔ ∃ i, IsLast n pts j i := by
  constructor
  · rintro ⟨i, hi, e⟩
    induction n with
    | zero => omega
    | succ n ih =>
      by_cases h : pts n = j
      · exact ⟨n, by omega, h, fun i' h1 h2 => by omega⟩
      · have hin : i < n := by
          rcases Nat.lt_succ_iff_lt_or_eq.1 hi with h' | h'
          · exact h'
          · exact absurd (h' ▸ e) h
        obtain ⟨k, hk, ek, hl⟩ := ih hin
        refine ⟨k, by omega, ek, fun i' h1 h2 => ?_⟩
        rcases Nat.lt_succ_iff_lt_or_eq.1 h2 with h' | h'
        · exact hl i' h1 h'
        · exact h' ▸ h
  · rintro ⟨i, hi, e, -⟩; exact ⟨i, hi, e⟩

/-- A scattering loop leaves, at a named point, the value of the last entry. -/
theorem forN_last {α : Type*} {n : Nat} {p : Nat → Nat} (v : Nat → α) (a : Nat → α) {j i : Nat}
    (h : IsLast n p j i) : forN n (fun i a => wr a (p i) (v i)) a j = v i := by
  obtain ⟨hi, e, hl⟩ := h
  induction n with
  | zero => omega
  | succ n ih =>
    simp only [forN]
    rcases Nat.lt_succ_iff_lt_or_eq.1 hi with h' | h'
    · rw [wr_other _ _ (fun hh => hl n h' (by omega) hh.symm)]
      exact ih h' (fun i' h1 h2 => hl i' h1 (by omega))
    · subst h'; rw [← e, wr_same]

theorem forN_unnamed {α : Type*} {n : Nat} {p : Nat → Nat} (v : Nat → α) (a : Nat → α) {j : Nat}
    (h : ¬ Named n p j) : forN n (fun i a => wr a (p i) (v i)) a j = a j :=
  forN_scatter_other n p v a j (fun i hi e => h ⟨i, hi, e⟩)

theorem buildMap_last {t : Table} {j i : Nat} (h : IsLast t.num t.points j i) :
    (buildMap t).get j = some i := forN_last (fun i => some i) _ h

theorem buildMap_unnamed {t : Table} {j : Nat} (h : ¬ Named t.num t.points j) :
    (buildMap t).get j = none := forN_unnamed (fun i => some i) _ h

theorem buildMap_nonEmpty {t : Table} {j : Nat} (h : Named t.num t.points j) :
    (buildMap t).nonEmpty = true := by
  obtain ⟨i, hi, -⟩ := h
  simp only [buildMap, decide_eq_true_eq]; omega

/-- The maps, when present, are those of the current tables. -/
def MapsOk (s : Model2) : Prop := s.maps = none ∨ s.maps = some (buildMap s.t0, buildMap s.t1)

theorem mapsOk_runOps (ops : List Op) : ∀ s, MapsOk s → MapsOk (runOps s ops) := by
  induction ops with
  | nil => intro s h; exact h
  | cons o ops ih =>
    intro s h
    apply ih
    cases o with
    | set ty num pts prm => cases ty <;> exact Or.inl rfl
    | evalOnPoints =>
      rcases h with h | h
      · right; simp [withMaps, h]
      · right; simp [withMaps, h]

theorem mapsOk_history (ops : List Op) : MapsOk (runOps {} ops) :=
  mapsOk_runOps ops {} (Or.inl rfl)

theorem withMaps_maps {s : Model2} (h : MapsOk s) :
    (withMaps s).maps = some (buildMap s.t0, buildMap s.t1) ∧ (withMaps s).t0 = s.t0 ∧
      (withMaps s).t1 = s.t1 := by
  rcases h with h | h <;> simp [withMaps, h]

/-- A loop over points in which no lookup is undefined. -/
theorem forN_some {α : Type*} (n : Nat) (f : Nat → Option α) (a : Nat → α)
    (body : Nat → (Nat → α) → Option (Nat → α))
    (hb : ∀ i, i < n → ∀ o, body i o = some (match f i with | some v => wr o i v | none => o)) :
    ∃ o, forN n (fun i (o : Option (Nat → α)) => o.bind (body i)) (some a) = some o ∧
      (∀ i, i < n → o i = (f i).getD (a i)) ∧ (∀ i, n ≤ i → o i = a i) := by
  induction n with
  | zero => exact ⟨a, rfl, fun i hi => by omega, fun i _ => rfl⟩
  | succ n ih =>
    obtain ⟨o, e, h1, h2⟩ := ih (fun i hi => hb i (by omega))
    simp only [forN, e, Option.bind_some, hb n (by omega)]
    refine ⟨_, rfl, ?_, ?_⟩
    · intro i hi
      rcases Nat.lt_succ_iff_lt_or_eq.1 hi with h' | h'
      · cases hf : f n with
        | none => exact h1 i h'
        | some v => simp only; rw [wr_other _ _ (by omega)]; exact h1 i h'
      · subst h'
        cases hf : f i with
        | none => simp only [Option.getD_none]; exact h2 i (le_refl _)
        | some v => simp
    · intro i hi
      cases hf : f n with
      | none => exact h2 i (by omega)
      | some v => simp only; rw [wr_other _ _ (by omega)]; exact h2 i (by omega)

theorem lookup_first {mo : Nat → Bool} {t0 t1 : Table} {j i : Nat}
    (h : IsLast t0.num t0.points j i) : lookup mo (buildMap t0, buildMap t1) j = .inFirst i := by
  simp [lookup, buildMap_last h, buildMap_nonEmpty ((named_iff_last _ _ _).2 ⟨i, h⟩)]

theorem lookup_second {mo : Nat → Bool} {t0 t1 : Table} {j i : Nat}
    (h0 : ¬ Named t0.num t0.points j) (hmo : t0.num ≠ 0 → mo t0.num = false)
    (h : IsLast t1.num t1.points j i) : lookup mo (buildMap t0, buildMap t1) j = .inSecond i := by
  have hn : (buildMap t0).num = t0.num := rfl
  by_cases hz : t0.num = 0
  · have : (buildMap t0).nonEmpty = false := by simp [buildMap, hz]
    simp [lookup, this, buildMap_last h, buildMap_nonEmpty ((named_iff_last _ _ _).2 ⟨i, h⟩)]
  · simp [lookup, buildMap_unnamed h0, hn, hmo hz, buildMap_last h,
      buildMap_nonEmpty ((named_iff_last _ _ _).2 ⟨i, h⟩)]

theorem lookup_none {mo : Nat → Bool} {t0 t1 : Table} {j : Nat}
    (h0 : ¬ Named t0.num t0.points j) (hmo : t0.num ≠ 0 → mo t0.num = false)
    (h1 : ¬ Named t1.num t1.points j) (hmo1 : t1.num ≠ 0 → mo t1.num = false) :
    lookup mo (buildMap t0, buildMap t1) j = .unregistered := by
  have hn : (buildMap t0).num = t0.num := rfl
  have hn1 : (buildMap t1).num = t1.num := rfl
  have e1 : (buildMap t1).nonEmpty = true → mo t1.num = false := by
    intro h; apply hmo1; simpa [buildMap] using h
  have e0 : (buildMap t0).nonEmpty = true → mo t0.num = false := by
    intro h; apply hmo; simpa [buildMap] using h
  simp only [lookup, buildMap_unnamed h0, buildMap_unnamed h1, hn, hn1]
  split
  · rename_i h; rw [e0 h]
    simp only [Bool.false_eq_true, if_false]
    split
    · rename_i h; rw [e1 h]; simp
    · rfl
  · split
    · rename_i h; rw [e1 h]; simp
    · rfl

end TDy.Curves.Proofs
