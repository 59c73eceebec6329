import Mathlib.Logic.Function.Basic

/-!
# C loops and arrays

`forN n body s` is `for (i = 0; i < n; ++i) s = body(i, s)`.  An array is a function from indices
(a pointer with the memory after it); `wr a i v` is `a[i] = v`.  Bounds are not part of `wr`:
where they matter the theorems state which entries may change, or the model checks them itself.
-/

namespace TDy

/-- `for (PetscInt i = 0; i < n; ++i) s = body(i, s);` -/
def forN {σ : Type*} : Nat → (Nat → σ → σ) → σ → σ
  | 0, _, s => s
  | n + 1, body, s => body n (forN n body s)

/-- `a[i] = v` -/
def wr {α : Type*} (a : Nat → α) (i : Nat) (v : α) : Nat → α :=
  fun j => if j = i then v else a j

@[simp] theorem wr_same {α : Type*} (a : Nat → α) (i : Nat) (v : α) : wr a i v i = v := by
  simp [wr]

theorem wr_other {α : Type*} (a : Nat → α) {i j : Nat} (v : α) (h : j ≠ i) : wr a i v j = a j := by
  simp [wr, h]

/-- Induction principle for loops: an invariant indexed by the number of iterations done. -/
theorem forN_invariant {σ : Type*} (n : Nat) (body : Nat → σ → σ) (s : σ) (I : Nat → σ → Prop)
    (h0 : I 0 s) (hs : ∀ i s, i < n → I i s → I (i + 1) (body i s)) : I n (forN n body s) := by
  suffices ∀ k, k ≤ n → I k (forN k body s) from this n (Nat.le_refl n)
  intro k
  induction k with
  | zero => intro _; exact h0
  | succ k ih => intro hk; exact hs k _ (by omega) (ih (by omega))

/-- A loop that writes `v i` at index `i`. -/
theorem forN_fill {α : Type*} (n : Nat) (v : Nat → α) (a : Nat → α) (j : Nat) :
    forN n (fun i a => wr a i (v i)) a j = if j < n then v j else a j := by
  induction n with
  | zero => simp [forN]
  | succ n ih =>
    simp only [forN, wr]
    split
    · rename_i h; subst h; simp
    · rw [ih]
      by_cases h1 : j < n
      · rw [if_pos h1, if_pos (by omega)]
      · rw [if_neg h1, if_neg (by omega)]

/-- A loop that writes `v i` at index `p i`, for distinct indices. -/
theorem forN_scatter {α : Type*} (n : Nat) (p : Nat → Nat) (v : Nat → α) (a : Nat → α)
    (hinj : ∀ i j, i < n → j < n → p i = p j → i = j) (i : Nat) (hi : i < n) :
    forN n (fun i a => wr a (p i) (v i)) a (p i) = v i := by
  induction n with
  | zero => omega
  | succ n ih =>
    simp only [forN, wr]
    split
    · rename_i h; rw [hinj i n hi (by omega) h]
    · rename_i h
      exact ih (fun i j hi hj => hinj i j (by omega) (by omega))
        (by rcases Nat.lt_succ_iff_lt_or_eq.1 hi with h' | h'
            · exact h'
            · exact absurd (by rw [h']) h)

/-- The entries a scattering loop does not touch. -/
theorem forN_scatter_other {α : Type*} (n : Nat) (p : Nat → Nat) (v : Nat → α) (a : Nat → α)
    (j : Nat) (hj : ∀ i, i < n → p i ≠ j) :
    forN n (fun i a => wr a (p i) (v i)) a j = a j := by
  induction n with
  | zero => rfl
  | succ n ih =>
    simp only [forN]
    rw [wr_other _ _ (fun h => hj n (by omega) h.symm)]
    exact ih (fun i hi => hj i (by omega))

/-- Two nested loops of which the inner one has three iterations are one loop. -/
theorem forN_nest3 {σ : Type*} (n : Nat) (body : Nat → Nat → σ → σ) (s : σ) :
    forN n (fun i s => forN 3 (fun f s => body i f s) s) s
      = forN (3 * n) (fun q s => body (q / 3) (q % 3) s) s := by
  induction n with
  | zero => rfl
  | succ n ih =>
    have e : forN (n + 1) (fun i s => forN 3 (fun f s => body i f s) s) s
        = body n 2 (body n 1 (body n 0
            (forN n (fun i s => forN 3 (fun f s => body i f s) s) s))) := rfl
    have e' : forN (3 * n + 1 + 1 + 1) (fun q s => body (q / 3) (q % 3) s) s
        = body ((3 * n + 1 + 1) / 3) ((3 * n + 1 + 1) % 3)
            (body ((3 * n + 1) / 3) ((3 * n + 1) % 3)
              (body ((3 * n) / 3) ((3 * n) % 3)
                (forN (3 * n) (fun q s => body (q / 3) (q % 3) s) s))) := rfl
    have h0 : (3 * n) / 3 = n ∧ (3 * n) % 3 = 0 := by omega
    have h1 : (3 * n + 1) / 3 = n ∧ (3 * n + 1) % 3 = 1 := by omega
    have h2 : (3 * n + 1 + 1) / 3 = n ∧ (3 * n + 1 + 1) % 3 = 2 := by omega
    rw [show 3 * (n + 1) = 3 * n + 1 + 1 + 1 by omega, e, e', ih, h0.1, h0.2, h1.1, h1.2, h2.1,
      h2.2]

end TDy
