import Verif.Spec.Library

/-!
# C05-C07: shutdown functions, re-initialisation, named functions
-/

namespace TDy.Lib.Props

open TDy TDy.Lib TDy.Lib.Spec

/-! ### Helper lemmas -/

/-- The library between its start and `TDyFinalize`, having registered `fs` (oldest first). -/
structure Good (l : Lib) (fs : List ShutFn) : Prop where
  num : l.num = fs.length
  arr : (l.arr = .null ∧ fs = []) ∨
    ∃ a, l.arr = .live a ∧ a.length = l.cap ∧ l.num ≤ l.cap ∧ 0 < l.cap ∧
      ∀ i (h : i < fs.length), a[i]? = some (some fs[i])
  timersOnce : l.timers ≠ .freed
  timers : (l.pkgInit = true ↔ ShutFn.timers ∈ fs) ∧ (ShutFn.timers ∈ fs → l.timers = .live ())
  timersCount : fs.count .timers ≤ 1
  funcs : l.funcs ≠ .freed
  funcsMem : ShutFn.registry ∈ fs ↔ l.funcs ≠ .null
  registryCount : fs.count .registry ≤ 1
  calls : l.calls = []

theorem good_start : Good Lib.start [] :=
  ⟨rfl, Or.inl ⟨rfl, rfl⟩, by simp [Lib.start], by simp [Lib.start], by simp,
   by simp [Lib.start], by simp [Lib.start], by simp, rfl⟩

/-- The array part of `Good`. -/
def ArrOk (l : Lib) (fs : List ShutFn) : Prop :=
  l.num = fs.length ∧ ((l.arr = .null ∧ fs = []) ∨
    ∃ a, l.arr = .live a ∧ a.length = l.cap ∧ l.num ≤ l.cap ∧ 0 < l.cap ∧
      ∀ i (h : i < fs.length), a[i]? = some (some fs[i]))

/-- `TDyOnFinalize` never fails and appends one entry, whatever the capacity. -/
theorem onFinalize_ok {l : Lib} {fs : List ShutFn} (h : ArrOk l fs) (f : ShutFn) :
    ∃ l', onFinalize l f = .ok l' ∧ ArrOk l' (fs ++ [f]) ∧
      l'.pkgInit = l.pkgInit ∧ l'.funcs = l.funcs ∧ l'.timers = l.timers ∧ l'.calls = l.calls := by
  obtain ⟨hn, h⟩ := h
  rcases h with ⟨hnull, hfs⟩ | ⟨a, ha, hlen, hle, hpos, hget⟩
  · subst hfs
    simp only [List.length_nil] at hn
    refine ⟨{ l with cap := 32, arr := .live ((List.replicate 32 none).set 0 (some f)), num := 1 },
      by simp only [onFinalize, hnull, storeFn, hn]; rfl, ⟨rfl, ?_⟩, rfl, rfl, rfl, rfl⟩
    refine Or.inr ⟨_, rfl, rfl, (by decide : (1:Nat) ≤ 32), (by decide : 0 < (32:Nat)), ?_⟩
    intro i hi
    have : i = 0 := by simp at hi; omega
    subst this; rfl
  · by_cases hc : l.num = l.cap
    · refine ⟨{ l with cap := l.cap * 2, num := l.cap + 1,
                       arr := .live ((a ++ List.replicate (l.cap * 2 - a.length) none).set l.cap
                         (some f)) }, by
        simp only [onFinalize, ha, hc, if_true, storeFn]
        rw [if_pos (by simp [hlen]; omega)], ⟨by simp [← hn, hc], ?_⟩, rfl, rfl, rfl, rfl⟩
      refine Or.inr ⟨_, rfl, by simp [hlen]; omega, by simp; omega, by simp; omega, ?_⟩
      intro i hi
      simp only [List.length_append, List.length_singleton] at hi
      by_cases hi' : i < fs.length
      · rw [List.getElem?_set, if_neg (by omega), List.getElem?_append_left (by omega),
          hget i hi', List.getElem_append_left hi']
      · have : i = fs.length := by omega
        subst this
        rw [List.getElem?_set, if_pos (by omega), if_pos (by simp [hlen]; omega)]
        simp
    · refine ⟨{ l with num := l.num + 1, arr := .live (a.set l.num (some f)) }, by
        simp only [onFinalize, ha, hc, if_false, storeFn]
        rw [if_pos (by omega)], ⟨by simp [hn], ?_⟩, rfl, rfl, rfl, rfl⟩
      refine Or.inr ⟨_, rfl, by simp [hlen], by simp; omega, hpos, ?_⟩
      intro i hi
      simp only [List.length_append, List.length_singleton] at hi
      by_cases hi' : i < fs.length
      · rw [List.getElem?_set, if_neg (by omega), hget i hi', List.getElem_append_left hi']
      · have : i = fs.length := by omega
        subst this
        rw [List.getElem?_set, if_pos hn, if_pos (by omega)]
        simp

/-- The registrations one call makes. -/
def newRegs (l : Lib) : Op → List ShutFn
  | .init => if l.pkgInit then [] else [.timers]
  | .onFinalize id => [.user id]
  | .register _ _ => if l.funcs = .null then [.registry] else []

theorem step_ok {l : Lib} {fs : List ShutFn} (g : Good l fs) (o : Op) :
    ∃ l', step l o = .ok l' ∧ Good l' (fs ++ newRegs l o) := by
  cases o with
  | init =>
    by_cases hp : l.pkgInit = true
    · exact ⟨l, by simp [step, init, hp], by simpa [newRegs, hp] using g⟩
    · have hnt : ShutFn.timers ∉ fs := fun h => hp (g.timers.1.2 h)
      have hA : ArrOk { l with timers := .live () } fs := ⟨g.num, g.arr⟩
      obtain ⟨l', he, hA', h1, h2, h3, h4⟩ := onFinalize_ok hA .timers
      refine ⟨{ l' with pkgInit := true }, ?_, ?_⟩
      · have hi : initTimers l = .ok l' := by
          unfold initTimers
          cases ht : l.timers with
          | freed => exact absurd ht g.timersOnce
          | null => exact he
          | live u => exact he
        simp [step, init, hp, hi, Res.bind]
      · have hf : l'.funcs = l.funcs := h2
        have ht : l'.timers = .live () := h3
        have hc : l'.calls = l.calls := h4
        refine ⟨?_, ?_, ?_, ?_, ?_, ?_, ?_, ?_, ?_⟩
        all_goals simp only [newRegs, hp, Bool.false_eq_true, if_false]
        · exact hA'.1
        · exact hA'.2
        · simp [ht]
        · simp [ht]
        · rw [List.count_append, List.count_eq_zero.2 hnt]; decide
        · rw [hf]; exact g.funcs
        · rw [hf, ← g.funcsMem]; simp
        · rw [List.count_append]
          have := g.registryCount
          have h0 : List.count ShutFn.registry [ShutFn.timers] = 0 := by decide
          omega
        · rw [hc]; exact g.calls
  | onFinalize id =>
    obtain ⟨l', he, hA', h1, h2, h3, h4⟩ := onFinalize_ok (l := l) (fs := fs) ⟨g.num, g.arr⟩
      (.user id)
    refine ⟨l', he, ?_⟩
    refine ⟨hA'.1, hA'.2, ?_, ?_, ?_, ?_, ?_, ?_, ?_⟩
    all_goals try simp only [newRegs]
    · rw [h3]; exact g.timersOnce
    · rw [h1, h3]
      have := g.timers
      constructor
      · rw [this.1]; simp
      · intro h; exact this.2 (by simpa using h)
    · rw [List.count_append]
      have := g.timersCount
      have h0 : List.count ShutFn.timers [ShutFn.user id] = 0 := by
        rw [List.count_eq_zero]; simp
      omega
    · rw [h2]; exact g.funcs
    · rw [h2, ← g.funcsMem]; simp
    · rw [List.count_append]
      have := g.registryCount
      have h0 : List.count ShutFn.registry [ShutFn.user id] = 0 := by
        rw [List.count_eq_zero]; simp
      omega
    · rw [h4]; exact g.calls
  | register n f =>
    cases hf : l.funcs with
    | freed => exact absurd hf g.funcs
    | live m =>
      refine ⟨{ l with funcs := .live ((n, f) :: m.filter (fun p => p.1 ≠ n)) },
        by simp only [step, registerFn, hf], ?_⟩
      simp only [newRegs, hf, reduceCtorEq, if_false, List.append_nil]
      refine ⟨g.num, g.arr, g.timersOnce, g.timers, g.timersCount, by simp, ?_,
        g.registryCount, g.calls⟩
      rw [g.funcsMem, hf]; simp
    | null =>
      have hnr : ShutFn.registry ∉ fs := fun h => (g.funcsMem.1 h) hf
      have hA : ArrOk { l with funcs := .live [] } fs := ⟨g.num, g.arr⟩
      obtain ⟨l', he, hA', h1, h2, h3, h4⟩ := onFinalize_ok hA .registry
      refine ⟨{ l' with funcs := .live [(n, f)] }, by simp [step, registerFn, hf, he, Res.bind], ?_⟩
      refine ⟨?_, ?_, ?_, ?_, ?_, ?_, ?_, ?_, ?_⟩
      all_goals simp only [newRegs, hf, if_true]
      · exact hA'.1
      · exact hA'.2
      · have h3' : l'.timers = l.timers := h3
        rw [h3']; exact g.timersOnce
      · have h3' : l'.timers = l.timers := h3
        have h1' : l'.pkgInit = l.pkgInit := h1
        rw [h3', h1']
        have := g.timers
        constructor
        · rw [this.1]; simp
        · intro h; exact this.2 (by simpa using h)
      · rw [List.count_append]
        have := g.timersCount
        have h0 : List.count ShutFn.timers [ShutFn.registry] = 0 := by decide
        omega
      · simp
      · simp
      · rw [List.count_append, List.count_eq_zero.2 hnr]; decide
      · have h4' : l'.calls = l.calls := h4
        rw [h4']; exact g.calls

theorem userCalls_append (a b : List ShutFn) : userCalls (a ++ b) = userCalls a ++ userCalls b := by
  induction a with
  | nil => rfl
  | cons x a ih => cases x <;> simp [userCalls, ih]

theorem userCalls_reverse (a : List ShutFn) : userCalls a.reverse = (userCalls a).reverse := by
  induction a with
  | nil => rfl
  | cons x a ih =>
    rw [List.reverse_cons, userCalls_append, ih]
    cases x <;> simp [userCalls]

theorem run_ok (ops : List Op) {l : Lib} {fs : List ShutFn} (g : Good l fs) :
    ∃ l' gs, run l ops = .ok l' ∧ Good l' (fs ++ gs) ∧ userCalls gs = userRegistrations ops := by
  induction ops generalizing l fs with
  | nil => exact ⟨l, [], rfl, by simpa using g, rfl⟩
  | cons o ops ih =>
    obtain ⟨l1, h1, g1⟩ := step_ok g o
    obtain ⟨l2, gs, h2, g2, hu⟩ := ih g1
    refine ⟨l2, newRegs l o ++ gs, by simp [run, h1, Res.bind, h2], by simpa using g2, ?_⟩
    rw [userCalls_append, hu]
    cases o with
    | init => simp only [newRegs]; split <;> rfl
    | onFinalize id => rfl
    | register n f => simp only [newRegs]; split <;> rfl

/-- Calling down the array runs the entries below `k` newest first, when the library's own
entries occur at most once among them and their tables are still live. -/
theorem callDown_ok (a : List (Option ShutFn)) (fs : List ShutFn)
    (hget : ∀ i (h : i < fs.length), a[i]? = some (some fs[i]))
    (hr : fs.count .registry ≤ 1) (ht : fs.count .timers ≤ 1) :
    ∀ (k : Nat) (hk : k ≤ fs.length) (l : Lib),
      (ShutFn.registry ∈ fs.take k → l.funcs ≠ .freed) →
      (ShutFn.timers ∈ fs.take k → l.timers = .live ()) →
      ∃ l', callDown a k l = .ok l' ∧ l'.calls = l.calls ++ (fs.take k).reverse ∧
        l'.arr = l.arr ∧ l'.num = l.num ∧ l'.cap = l.cap ∧
        (ShutFn.timers ∈ fs.take k → l'.timers = .freed) ∧
        (l.timers = .freed → l'.timers = .freed) ∧
        (ShutFn.registry ∈ fs.take k → l.funcs ≠ .null → l'.funcs = .freed) := by
  intro k
  induction k with
  | zero => intro _ l _ _; exact ⟨l, rfl, by simp, rfl, rfl, rfl, by simp, id, by simp⟩
  | succ k ih =>
    intro hk l hreg htim
    have hlt : k < fs.length := by omega
    have htake : fs.take (k + 1) = fs.take k ++ [fs[k]] := by
      rw [List.take_add_one, List.getElem?_eq_getElem hlt]; rfl
    have hsub : List.Sublist (fs.take (k + 1)) fs := List.take_sublist _ _
    have hr' : (fs.take (k+1)).count .registry ≤ 1 := Nat.le_trans (hsub.count_le _) hr
    have ht' : (fs.take (k+1)).count .timers ≤ 1 := Nat.le_trans (hsub.count_le _) ht
    rw [htake] at hreg htim hr' ht'
    simp only [callDown, hget k hlt]
    cases hfk : fs[k] with
    | user id =>
      rw [hfk] at hreg htim
      obtain ⟨l', e, hc, h1, h2, h3, h4, h5, h6⟩ := ih (by omega)
        { l with calls := l.calls ++ [.user id] }
        (fun h => hreg (by simp [h])) (fun h => htim (by simp [h]))
      refine ⟨l', by simpa [callFn, Res.bind] using e, ?_, h1, h2, h3, ?_, h5, ?_⟩
      · rw [hc, htake, hfk]; simp
      · rw [htake, hfk]; intro h; exact h4 (by simpa using h)
      · rw [htake, hfk]; intro h; exact h6 (by simpa using h)
    | registry =>
      rw [hfk] at hreg htim hr'
      have hnot : ShutFn.registry ∉ fs.take k := by
        rw [List.count_append] at hr'
        have : List.count ShutFn.registry [ShutFn.registry] = 1 := by decide
        exact List.count_eq_zero.1 (by omega)
      have hlive := hreg (by simp)
      cases hf : l.funcs with
      | freed => exact absurd hf hlive
      | null =>
        obtain ⟨l', e, hc, h1, h2, h3, h4, h5, h6⟩ := ih (by omega)
          { l with calls := l.calls ++ [.registry] }
          (fun h => absurd h hnot) (fun h => htim (by simp [h]))
        refine ⟨l', by simpa [callFn, hf, Res.bind] using e, ?_, h1, h2, h3, ?_, h5, ?_⟩
        · rw [hc, htake, hfk]; simp
        · rw [htake, hfk]; intro h; exact h4 (by simpa using h)
        · intro _ h; exact absurd rfl h
      | live m =>
        obtain ⟨l', e, hc, h1, h2, h3, h4, h5, h6⟩ := ih (by omega)
          { l with calls := l.calls ++ [.registry], funcs := .freed }
          (fun h => absurd h hnot) (fun h => htim (by simp [h]))
        have hfr : ∀ (k : Nat) (x y : Lib), x.funcs = .freed → callDown a k x = .ok y →
            y.funcs = .freed := by
          intro k
          induction k with
          | zero => intro x y hx he; cases he; exact hx
          | succ k ihk =>
            intro x y hx he
            simp only [callDown] at he
            split at he
            · rename_i f _
              cases f with
              | user id =>
                simp only [callFn, Res.bind] at he
                exact ihk _ y (by simpa using hx) he
              | registry => simp [callFn, hx, Res.bind] at he
              | timers =>
                cases hxt : x.timers with
                | live u =>
                  simp only [callFn, hxt, Res.bind] at he
                  exact ihk _ y (by simpa using hx) he
                | null => simp [callFn, hxt, Res.bind] at he
                | freed => simp [callFn, hxt, Res.bind] at he
            · cases he
        refine ⟨l', by simpa [callFn, hf, Res.bind] using e, ?_, h1, h2, h3, ?_, h5, ?_⟩
        · rw [hc, htake, hfk]; simp
        · rw [htake, hfk]; intro h; exact h4 (by simpa using h)
        · intro _ _; exact hfr k _ l' rfl e
    | timers =>
      rw [hfk] at hreg htim ht'
      have hnot : ShutFn.timers ∉ fs.take k := by
        rw [List.count_append] at ht'
        have : List.count ShutFn.timers [ShutFn.timers] = 1 := by decide
        exact List.count_eq_zero.1 (by omega)
      have hlive := htim (by simp)
      obtain ⟨l', e, hc, h1, h2, h3, h4, h5, h6⟩ := ih (by omega)
        { l with calls := l.calls ++ [.timers], timers := .freed }
        (fun h => hreg (by simp [h])) (fun h => absurd h hnot)
      refine ⟨l', by simpa [callFn, hlive, Res.bind] using e, ?_, h1, h2, h3, ?_, ?_, ?_⟩
      · rw [hc, htake, hfk]; simp
      · intro _; exact h5 rfl
      · intro h; rw [hlive] at h; cases h
      · rw [htake, hfk]; intro h; exact h6 (by simpa using h)

theorem finalize_ok {l : Lib} {fs : List ShutFn} (g : Good l fs) :
    ∃ l', finalize l = .ok l' ∧ l'.calls = fs.reverse ∧
      (fs ≠ [] → l'.arr = .freed) ∧ (ShutFn.timers ∈ fs → l'.timers = .freed) ∧
      (ShutFn.registry ∈ fs → l'.funcs = .freed) ∧ l'.pkgInit = false := by
  rcases g.arr with ⟨hn, hfs⟩ | ⟨a, ha, hlen, hle, hpos, hget⟩
  · subst hfs
    exact ⟨{ l with pkgInit := false }, by simp only [finalize, hn], by simpa using g.calls, by simp, by simp, by simp, rfl⟩
  · obtain ⟨l', e, hc, h1, h2, h3, h4, h5, h6⟩ := callDown_ok a fs hget g.registryCount
      g.timersCount fs.length (Nat.le_refl _) l (fun _ => g.funcs)
      (fun h => g.timers.2 (by simpa using h))
    rw [← g.num] at e
    refine ⟨{ l' with arr := .freed, pkgInit := false },
      by simp only [finalize, ha, e, Res.bind], ?_, fun _ => rfl, ?_, ?_, rfl⟩
    · simp [hc, g.calls]
    · intro h; exact h4 (by simpa using h)
    · intro h; exact h6 (by simpa using h) (g.funcsMem.1 h)

/-! ## C05 : shutdown functions run exactly once, newest first -/

/-- For every sequence of library calls (of any length, so with any number of growths of the
array), none of them is undefined or refused, and `TDyFinalize` then calls exactly the functions
registered by the user, newest first, once per registration. -/
theorem C05_shutdown_newest_first (ops : List Op) :
    ∃ l l', run Lib.start ops = .ok l ∧ finalize l = .ok l' ∧
      userCalls l'.calls = (userRegistrations ops).reverse := by
  obtain ⟨l, gs, h, g, hu⟩ := run_ok ops good_start
  obtain ⟨l', hf, hc, _⟩ := finalize_ok g
  refine ⟨l, l', h, hf, ?_⟩
  rw [hc, List.nil_append, userCalls_reverse, hu]

/-- The library's own shutdown functions run once each: the timers exactly when the library was
initialised. -/
theorem C05_library_functions_once (ops : List Op) :
    ∃ l l', run Lib.start ops = .ok l ∧ finalize l = .ok l' ∧
      l'.calls.count .timers = (if Op.init ∈ ops then 1 else 0) := by
  have key : ∀ (ops : List Op) {l : Lib} {fs : List ShutFn}, Good l fs →
      ∃ l' gs, run l ops = .ok l' ∧ Good l' (fs ++ gs) ∧
        (l'.pkgInit = true ↔ (l.pkgInit = true ∨ Op.init ∈ ops)) := by
    intro ops
    induction ops with
    | nil => intro l fs g; exact ⟨l, [], rfl, by simpa using g, by simp⟩
    | cons o ops ih =>
      intro l fs g
      obtain ⟨l1, h1, g1⟩ := step_ok g o
      obtain ⟨l2, gs, h2, g2, hp⟩ := ih g1
      refine ⟨l2, newRegs l o ++ gs, by simp [run, h1, Res.bind, h2], by simpa using g2, ?_⟩
      rw [hp, g1.timers.1]
      cases o with
      | init =>
        simp only [newRegs]
        by_cases hp : l.pkgInit = true
        · have := g.timers.1.1 hp; simp [hp, this]
        · simp [hp]
      | onFinalize id => rw [g.timers.1]; simp [newRegs]
      | register n f =>
        rw [g.timers.1]
        simp only [newRegs]
        split <;> simp
  obtain ⟨l, gs, h, g, hp⟩ := key ops good_start
  obtain ⟨l', hf, hc, _⟩ := finalize_ok g
  refine ⟨l, l', h, hf, ?_⟩
  rw [hc, List.count_reverse]
  have hcnt := g.timersCount
  have hmem := g.timers.1
  rw [hp] at hmem
  simp only [Lib.start, Bool.false_eq_true, false_or] at hmem
  split
  · rename_i hin
    have := List.count_pos_iff.2 (hmem.1 hin)
    omega
  · rename_i hin
    exact List.count_eq_zero.2 (fun h => hin (hmem.2 h))

/-- Non-vacuity of C05: 40 registrations, more than the initial capacity of 32. -/
example : ∃ l l', run Lib.start (.init :: (List.range 40).map .onFinalize) = .ok l ∧
    l.cap = 64 ∧ finalize l = .ok l' ∧ userCalls l'.calls = (List.range 40).reverse := by
  refine ⟨_, _, rfl, rfl, rfl, rfl⟩

/-! ## C06 : re-initialisation after `TDyFinalize` -/

/-- The property fails for every first cycle in which the library was initialised: whatever else
was done in it, the next `TDyInit`, any later `TDyOnFinalize` and a second `TDyFinalize` use
freed memory. -/
theorem C06_reinitialisation_undefined (ops : List Op) (h : Op.init ∈ ops) :
    ∃ l l', run Lib.start ops = .ok l ∧ finalize l = .ok l' ∧
      init l' = .ub ∧ (∀ f, onFinalize l' f = .ub) ∧ finalize l' = .ub := by
  have key : ∀ (ops : List Op) {l : Lib} {fs : List ShutFn}, Good l fs →
      (Op.init ∈ ops ∨ ShutFn.timers ∈ fs) →
      ∃ l' gs, run l ops = .ok l' ∧ Good l' gs ∧ ShutFn.timers ∈ gs := by
    intro ops
    induction ops with
    | nil => intro l fs g h; exact ⟨l, fs, rfl, g, by simpa using h⟩
    | cons o ops ih =>
      intro l fs g h
      obtain ⟨l1, h1, g1⟩ := step_ok g o
      have : Op.init ∈ ops ∨ ShutFn.timers ∈ fs ++ newRegs l o := by
        rcases h with h | h
        · rcases List.mem_cons.1 h with h | h
          · subst h
            right
            by_cases hp : l.pkgInit = true
            · exact List.mem_append_left _ (g.timers.1.1 hp)
            · simp [newRegs, hp]
          · exact Or.inl h
        · exact Or.inr (List.mem_append_left _ h)
      obtain ⟨l2, gs, h2, g2, ht⟩ := ih g1 this
      exact ⟨l2, gs, by simp [run, h1, Res.bind, h2], g2, ht⟩
  obtain ⟨l, gs, hrun, g, ht⟩ := key ops good_start (Or.inl h)
  obtain ⟨l', hf, _, harr, htim, _, hp⟩ := finalize_ok g
  have hfreed := harr (List.ne_nil_of_mem ht)
  refine ⟨l, l', hrun, hf, ?_, ?_, ?_⟩
  · simp [init, hp, initTimers, htim ht, Res.bind]
  · intro f; simp [onFinalize, hfreed]
  · simp [finalize, hfreed]

/-- After a cycle in which functions were registered by name, looking one up, or registering
one, uses the freed table. -/
theorem C06_named_functions_undefined (n m : String) (f g : Nat) :
    ∃ l l', run Lib.start [.init, .register n f] = .ok l ∧ finalize l = .ok l' ∧
      getFn l' m = .ub ∧ registerFn l' m g = .ub := by
  refine ⟨_, _, rfl, rfl, rfl, rfl⟩

/-- Full statement: the second cycle of any two init/finalize cycles runs only what was
registered in it.  Proved only for a first cycle that never used the library. -/
theorem C06_reinitialisation_partial (ops : List Op) :
    ∃ l0 l l', finalize Lib.start = .ok l0 ∧ run l0 ops = .ok l ∧ finalize l = .ok l' ∧
      userCalls l'.calls = (userRegistrations ops).reverse := by
  obtain ⟨l, l', h1, h2, h3⟩ := C05_shutdown_newest_first ops
  exact ⟨Lib.start, l, l', rfl, h1, h2, h3⟩

/-! ## C07 : named functions, the latest registration wins -/

theorem find_filter (m : List (String × Nat)) {n name : String} (hn : ¬ n = name) :
    (m.filter (fun p => p.1 ≠ n)).find? (fun p => p.1 = name) =
      m.find? (fun p => p.1 = name) := by
  induction m with
  | nil => rfl
  | cons p m ih =>
    by_cases hp : p.1 = n
    · rw [List.filter_cons_of_neg (by simpa using hp), ih]
      simp [hp, hn]
    · rw [List.filter_cons_of_pos (by simpa using hp)]
      simp only [List.find?_cons, ih]

theorem getFn_step (l l' : Lib) (o : Op) (name : String) (h : step l o = .ok l')
    (hf : l.funcs ≠ .freed) :
    getFn l' name = (match o with
      | .register n f => if n = name then .found f else getFn l name
      | _ => getFn l name) := by
  have ofin : ∀ (x y : Lib) (f : ShutFn), onFinalize x f = .ok y → y.funcs = x.funcs := by
    intro x y f hxy
    unfold onFinalize at hxy
    split at hxy
    · simp only [storeFn] at hxy
      split at hxy <;> cases hxy; rfl
    · split at hxy
      · simp only [storeFn] at hxy
        split at hxy <;> cases hxy; rfl
      · unfold storeFn at hxy
        split at hxy
        · split at hxy <;> cases hxy; rfl
        · cases hxy
    · cases hxy
  have same : l'.funcs = l.funcs → getFn l' name = getFn l name := by
    intro e; unfold getFn; rw [e]
  cases o with
  | init =>
    apply same
    simp only [step, init] at h
    split at h
    · cases h; rfl
    · unfold initTimers at h
      split at h
      · cases h
      · cases hr : onFinalize { l with timers := .live () } .timers with
        | ok y => have hy := ofin _ _ _ hr; rw [hr] at h; cases h; exact hy
        | err y => rw [hr] at h; cases h
        | ub => rw [hr] at h; cases h
  | onFinalize id => exact same (ofin _ _ _ h)
  | register n f =>
    simp only [step, registerFn] at h
    cases hl : l.funcs with
    | freed => exact absurd hl hf
    | null =>
      rw [hl] at h
      simp only at h
      cases hr : onFinalize { l with funcs := .live [] } .registry with
      | ok y =>
        rw [hr] at h; cases h
        simp only [getFn, hl, List.find?_cons, List.find?_nil]
        by_cases hn : n = name <;> simp [hn]
      | err y => rw [hr] at h; cases h
      | ub => rw [hr] at h; cases h
    | live m =>
      rw [hl] at h
      cases h
      simp only [getFn, hl, List.find?_cons]
      by_cases hn : n = name
      · simp [hn]
      · simp only [hn, decide_false, if_false]
        rw [find_filter m hn]

theorem getFn_run (ops : List Op) (name : String) :
    ∀ {l : Lib} {fs : List ShutFn}, Good l fs → ∃ l', run l ops = .ok l' ∧
      getFn l' name = (match latest name ops with
        | some f => .found f
        | none => getFn l name) := by
  induction ops with
  | nil => intro l fs g; exact ⟨l, rfl, rfl⟩
  | cons o ops ih =>
    intro l fs g
    obtain ⟨l1, h1, g1⟩ := step_ok g o
    obtain ⟨l2, h2, hg⟩ := ih g1
    refine ⟨l2, by simp [run, h1, Res.bind, h2], ?_⟩
    rw [hg, getFn_step l l1 o name h1 g.funcs]
    cases o with
    | init => rfl
    | onFinalize id => rfl
    | register n f =>
      simp only [latest]
      cases latest name ops with
      | some x => rfl
      | none => by_cases hn : n = name <;> simp [hn]

/-- After any sequence of library calls, looking a name up returns the function most recently
registered under it, and fails (leaving the caller's variable alone) exactly when there is
none. -/
theorem C07_latest_registration_wins (ops : List Op) (name : String) :
    ∃ l, run Lib.start ops = .ok l ∧
      (∀ f, latest name ops = some f → getFn l name = .found f) ∧
      (latest name ops = none → getFn l name = .notFound) := by
  obtain ⟨l, h, hg⟩ := getFn_run ops name good_start
  refine ⟨l, h, ?_, ?_⟩
  · intro f hf; rw [hg, hf]
  · intro hn; rw [hg, hn]; rfl

/-- Non-vacuity of C07: two registrations under one name, one under another. -/
example : ∃ l, run Lib.start [.register "p" 1, .init, .register "q" 2, .register "p" 3] = .ok l ∧
    getFn l "p" = .found 3 ∧ getFn l "q" = .found 2 ∧ getFn l "r" = .notFound := by
  refine ⟨_, rfl, ?_, ?_, ?_⟩ <;> decide

end TDy.Lib.Props
