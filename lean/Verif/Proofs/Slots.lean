import Verif.Spec.Slots
import Mathlib.Data.List.Induction
import Mathlib.Data.List.Basic

/-! # Helper lemmas for the callback records -/

namespace TDy.Slots.Proofs

open TDy TDy.Slots TDy.Slots.Spec

variable {κ : Type} [DecidableEq κ]

/-- The pair a slot would release. -/
def pending (s : Slot) : Option (Nat × Nat) :=
  match s.context, s.dtor with
  | some c, some d => some (d, c)
  | _, _ => none

theorem released_set (s : Store κ) (k : κ) (c f d : Option Nat) :
    (set s k c f d).released = s.released ++ (pending (s.slots k)).toList := by
  unfold set pending
  cases (s.slots k).context <;> cases (s.slots k).dtor <;> simp

theorem slots_set_same (s : Store κ) (k : κ) (c f d : Option Nat) :
    (set s k c f d).slots k = { context := c, fn := f, dtor := d } := by simp [set]

theorem slots_set_other (s : Store κ) {k k' : κ} (c f d : Option Nat) (h : k' ≠ k) :
    (set s k c f d).slots k' = s.slots k' := by simp [set, h]

/-- All the pairs that the slots of `ks` would release. -/
def pendings (s : Store κ) (ks : List κ) : List (Nat × Nat) :=
  ks.filterMap (fun k => pending (s.slots k))

omit [DecidableEq κ] in
theorem pendings_congr (s t : Store κ) (ks : List κ) (h : ∀ k ∈ ks, s.slots k = t.slots k) :
    pendings s ks = pendings t ks := by
  unfold pendings
  induction ks with
  | nil => rfl
  | cons k ks ih =>
    rw [List.filterMap_cons, List.filterMap_cons, h k List.mem_cons_self,
      ih (fun k' hk' => h k' (List.mem_cons_of_mem _ hk'))]

theorem pendings_set (s : Store κ) (ks : List κ) (k : κ) (hk : k ∈ ks) (hn : ks.Nodup)
    (c f d : Option Nat) :
    ((set s k c f d).released ++ pendings (set s k c f d) ks).Perm
      ((pending { context := c, fn := f, dtor := d }).toList ++
        (s.released ++ pendings s ks)) := by
  have hp : ks.Perm (k :: ks.erase k) := List.perm_cons_erase hk
  have hnotin : k ∉ ks.erase k := hn.not_mem_erase
  have h1 : (pendings (set s k c f d) ks).Perm
      ((pending { context := c, fn := f, dtor := d }).toList ++ pendings s (ks.erase k)) := by
    refine (hp.filterMap _).trans ?_
    have : (ks.erase k).filterMap (fun k' => pending ((set s k c f d).slots k')) =
        pendings s (ks.erase k) := by
      refine pendings_congr _ _ _ ?_
      intro k' hk'
      rw [slots_set_other]
      intro e; subst e; exact hnotin hk'
    rw [List.filterMap_cons, this, slots_set_same]
    cases pending { context := c, fn := f, dtor := d } <;> exact List.Perm.refl _
  have h2 : (pendings s ks).Perm ((pending (s.slots k)).toList ++ pendings s (ks.erase k)) := by
    refine (hp.filterMap _).trans ?_
    rw [List.filterMap_cons]
    unfold pendings
    cases pending (s.slots k) <;> exact List.Perm.refl _
  rw [released_set]
  refine (List.Perm.append_left _ h1).trans ?_
  refine List.Perm.trans ?_ (List.Perm.append_left _ (List.Perm.append_left _ h2.symm))
  rw [List.perm_iff_count]
  intro a
  simp only [List.count_append]
  omega

omit [DecidableEq κ] in
theorem owned_append (a b : List (SetCall κ)) : owned (a ++ b) = owned a ++ owned b := by
  induction a with
  | nil => rfl
  | cons c a ih =>
    obtain ⟨k, x, f, d⟩ := c
    cases x <;> cases d <;> simp [owned, ih]

omit [DecidableEq κ] in
theorem owned_single (c : SetCall κ) :
    owned [c] = (pending { context := c.context, fn := c.fn, dtor := c.dtor }).toList := by
  obtain ⟨k, x, f, d⟩ := c
  cases x <;> cases d <;> simp [owned, pending]

/-- Conservation: what has been released plus what is still held is what was handed over. -/
theorem conservation (ks : List κ) (hall : ∀ k : κ, k ∈ ks) (hn : ks.Nodup)
    (cs : List (SetCall κ)) :
    ((runSets Store.create cs).released ++ pendings (runSets Store.create cs) ks).Perm
      (owned cs) := by
  induction cs using List.reverseRecOn with
  | nil =>
    simp [runSets, Store.create, owned, pendings, pending]
  | append_singleton cs c ih =>
    have : runSets Store.create (cs ++ [c]) =
        set (runSets Store.create cs) c.key c.context c.fn c.dtor := by
      simp [runSets]
    rw [this]
    refine (pendings_set _ ks c.key (hall _) hn _ _ _).trans ?_
    rw [owned_append, owned_single]
    refine (List.Perm.append_left _ ih).trans ?_
    exact List.perm_append_comm

/-- Resetting a list of distinct quantities releases what they hold and nothing else. -/
theorem reset_all (ds : List κ) (hn : ds.Nodup) (s : Store κ) :
    (ds.foldl (fun s k => set s k none none none) s).released =
      s.released ++ pendings s ds := by
  induction ds generalizing s with
  | nil => simp [pendings]
  | cons d ds ih =>
    rw [List.foldl_cons, ih (List.nodup_cons.1 hn).2, released_set]
    have : pendings (set s d none none none) ds = pendings s ds := by
      refine pendings_congr _ _ _ ?_
      intro k' hk'
      rw [slots_set_other]
      intro e; subst e; exact (List.nodup_cons.1 hn).1 hk'
    rw [this]
    unfold pendings
    rw [List.filterMap_cons]
    cases pending (s.slots d) <;> simp

theorem lastSet_append (k : κ) (a : List (SetCall κ)) (c : SetCall κ) :
    lastSet k (a ++ [c]) = if c.key = k then some c else lastSet k a := by
  induction a with
  | nil => simp [lastSet]
  | cons x a ih =>
    simp only [List.cons_append, lastSet, ih]
    by_cases h : c.key = k <;> simp [h]

theorem slot_of_lastSet (cs : List (SetCall κ)) (k : κ) :
    (runSets Store.create cs).slots k =
      match lastSet k cs with
      | some c => { context := c.context, fn := c.fn, dtor := c.dtor }
      | none => {} := by
  induction cs using List.reverseRecOn with
  | nil => rfl
  | append_singleton cs c ih =>
    have : runSets Store.create (cs ++ [c]) =
        set (runSets Store.create cs) c.key c.context c.fn c.dtor := by
      simp [runSets]
    rw [this, lastSet_append]
    by_cases h : c.key = k
    · subst h; rw [slots_set_same]; simp
    · rw [slots_set_other _ _ _ _ (fun e => h e.symm), ih, if_neg h]

/-- The eight quantities. -/
def matKeys : List MatKey :=
  [.porosity, .permeability, .thermalConductivity, .residualSaturation, .soilDensity,
   .soilSpecificHeat, .salineDiffusivity, .salineMolecularWeight]

def condKeys : List CondKey :=
  [.forcing, .energyForcing, .boundaryPressure, .boundaryVelocity, .boundaryTemperature,
   .boundarySalineConc, .salinitySource, .boundaryPressureType]

def condReset : List CondKey :=
  [.forcing, .energyForcing, .boundaryPressure, .boundaryVelocity, .boundaryTemperature,
   .boundarySalineConc]

theorem matKeys_all (k : MatKey) : k ∈ matKeys := by cases k <;> decide
theorem condKeys_all (k : CondKey) : k ∈ condKeys := by cases k <;> decide

theorem matDestroy_released (s : Store MatKey) :
    (materialPropDestroy s).released = s.released ++ pendings s matKeys :=
  reset_all matKeys (by decide) s

theorem condDestroy_released (s : Store CondKey) :
    (conditionsDestroy s).released = s.released ++ pendings s condReset :=
  reset_all condReset (by decide) s

/-! ### Tensor loops -/

/-- A doubly nested loop writing distinct entries of one block per outer iteration. -/
theorem forN_blocks {α : Type} (n b m : Nat) (p : Nat → Nat) (v : Nat → Nat → α) (f : Nat → α)
    (hp : ∀ j, j < m → p j < b) (hinj : ∀ i j, i < m → j < m → p i = p j → i = j)
    (i q : Nat) (hq : q < b) :
    let g := forN n (fun i f => forN m (fun j f => wr f (b*i + p j) (v i j)) f) f
    (∀ j, j < m → p j = q → i < n → g (b*i + q) = v i j) ∧
    (((∀ j, j < m → p j ≠ q) ∨ n ≤ i) → g (b*i + q) = f (b*i + q)) := by
  intro g
  have inv : (fun k (g : Nat → α) =>
      (∀ j, j < m → p j = q → i < k → g (b*i + q) = v i j) ∧
      (((∀ j, j < m → p j ≠ q) ∨ k ≤ i) → g (b*i + q) = f (b*i + q))) n g := by
    refine forN_invariant n _ f (fun k (g : Nat → α) =>
      (∀ j, j < m → p j = q → i < k → g (b*i + q) = v i j) ∧
      (((∀ j, j < m → p j ≠ q) ∨ k ≤ i) → g (b*i + q) = f (b*i + q))) ?_ ?_
    · exact ⟨fun _ _ _ h => by omega, fun _ => rfl⟩
    · intro k h hk ⟨h1, h2⟩
      have hb : 0 < b := by omega
      have hne : ∀ j, j < m → k ≠ i → b*k + p j ≠ b*i + q := by
        intro j hj hki e
        have h3 := congrArg (· / b) e
        simp only [Nat.mul_add_div hb, Nat.div_eq_of_lt (hp j hj), Nat.div_eq_of_lt hq] at h3
        omega
      constructor
      · intro j hj hpj hik
        by_cases hki : k = i
        · subst hki
          have := forN_scatter m (fun j => b*k + p j) (fun j => v k j) h
            (fun a c ha hc e => hinj a c ha hc (by omega)) j hj
          rw [← hpj]; exact this
        · rw [forN_scatter_other m (fun j => b*k + p j) (fun j => v k j) h _
            (fun j' hj' => hne j' hj' hki)]
          exact h1 j hj hpj (by omega)
      · intro hor
        rw [forN_scatter_other m (fun j => b*k + p j) (fun j => v k j) h]
        · apply h2
          rcases hor with h | h
          · exact Or.inl h
          · exact Or.inr (by omega)
        · intro j' hj'
          rcases hor with h | h
          · by_cases hki : k = i
            · subst hki; intro e; exact h j' hj' (by omega)
            · exact hne j' hj' hki
          · exact hne j' hj' (by omega)
  exact inv

/-- The diagonal positions of a block. -/
theorem diag_pos {dim j : Nat} (h : j < dim) : j*dim + j < dim*dim := by
  have h1 : j*dim + j < j*dim + dim := by omega
  have h2 : (j+1)*dim ≤ dim*dim := Nat.mul_le_mul_right dim h
  have h3 : (j+1)*dim = j*dim + dim := Nat.succ_mul j dim
  omega

theorem pos_inj {dim r c r' c' : Nat} (hc : c < dim) (hc' : c' < dim)
    (e : r*dim + c = r'*dim + c') : r = r' ∧ c = c' := by
  have hd : 0 < dim := by omega
  have h1 := congrArg (· / dim) e
  simp only [Nat.mul_comm _ dim, Nat.mul_add_div hd, Nat.div_eq_of_lt hc,
    Nat.div_eq_of_lt hc'] at h1
  have : r = r' := by omega
  subst this
  omega

theorem pos_lt {dim r c : Nat} (hr : r < dim) (hc : c < dim) : r*dim + c < dim*dim := by
  have h2 : (r+1)*dim ≤ dim*dim := Nat.mul_le_mul_right dim hr
  have h3 : (r+1)*dim = r*dim + dim := Nat.succ_mul r dim
  omega

/-- Diagonal tensor loops. -/
theorem diag_loop {α : Type} (dim n : Nat) (v : Nat → Nat → α) (f : Nat → α) (i r c : Nat)
    (hr : r < dim) (hc : c < dim) :
    let g := forN n (fun i f => forN dim (fun j f => wr f (dim*dim*i + j*dim + j) (v i j)) f) f
    tensorAt dim g i r c =
      if i < n ∧ r = c then v i r else tensorAt dim f i r c := by
  intro g
  have hb := forN_blocks n (dim*dim) dim (fun j => j*dim + j) v f (fun j hj => diag_pos hj)
    (fun a b ha hb e => (pos_inj ha hb e).1) i (r*dim + c) (pos_lt hr hc)
  have hg : g = forN n (fun i f => forN dim (fun j f => wr f (dim*dim*i + (j*dim + j)) (v i j)) f)
      f := by
    simp only [g, Nat.add_assoc]
  simp only [tensorAt, Nat.add_assoc]
  rw [hg]
  split
  · rename_i h
    obtain ⟨hi, rfl⟩ := h
    exact hb.1 r hr rfl hi
  · rename_i h
    apply hb.2
    by_cases hi : i < n
    · left
      intro j hj e
      have := pos_inj hj hc e
      exact h ⟨hi, by omega⟩
    · right; omega

theorem full_loop {α : Type} (dim n : Nat) (v : Nat → α) (f : Nat → α) (i r c : Nat)
    (hr : r < dim) (hc : c < dim) :
    tensorAt dim (constantFull dim v n f) i r c =
      if i < n then v (r*dim + c) else tensorAt dim f i r c := by
  have hb := forN_blocks n (dim*dim) (dim*dim) (fun j => j) (fun _ j => v j) f (fun j hj => hj)
    (fun a b _ _ e => e) i (r*dim + c) (pos_lt hr hc)
  simp only [tensorAt, Nat.add_assoc, constantFull]
  split
  · rename_i h
    exact hb.1 (r*dim + c) (pos_lt hr hc) rfl h
  · rename_i h
    exact hb.2 (Or.inr (by omega))

end TDy.Slots.Proofs
