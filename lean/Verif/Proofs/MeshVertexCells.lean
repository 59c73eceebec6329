import Verif.Spec.MeshCustom
import Verif.Proofs.MeshConn

/-!
# The vertex-to-cell table of an imported mesh
-/

namespace TDy.Custom.Proofs

open TDy.Custom TDy.Custom.Spec TDy.Mesh TDy.Mesh.Proofs

theorem forN_foldl {σ : Type*} (n : Nat) (f : Nat → σ → σ) (s : σ) :
    forN n f s = (List.range n).foldl (fun s i => f i s) s := by
  induction n with
  | zero => rfl
  | succ n ih => rw [List.range_succ, List.foldl_append, ← ih]; rfl

/-- All corners in the order of the loop. -/
def corners (u : UG) : List (Nat × Nat) :=
  (List.range u.ng).flatMap (fun i => (List.range (u.nv i)).map (fun k => (i, k)))

theorem forN_corners {σ : Type*} (u : UG) (f : Nat → Nat → σ → σ) (s : σ) :
    forN u.ng (fun i s => forN (u.nv i) (f i) s) s = (corners u).foldl (fun s p => f p.1 p.2 s) s := by
  rw [forN_foldl, corners, List.foldl_flatMap]
  congr 1
  funext s i
  rw [forN_foldl, List.foldl_map]

/-- The cells with corner `v` among the pairs processed. -/
def seen (u : UG) (l : List (Nat × Nat)) (v : Nat) : List Nat :=
  (l.filter (fun p => u.cv p.1 p.2 = (v : Int))).map Prod.fst

theorem seen_corners (u : UG) (v : Nat) : seen u (corners u) v = cellsAt u v := by
  simp only [seen, corners, cellsAt, List.filter_flatMap, List.map_flatMap]
  congr 1
  funext i
  rw [List.filter_map, List.map_map]
  rfl

theorem seen_snoc (u : UG) (l : List (Nat × Nat)) (p : Nat × Nat) (v : Nat) :
    seen u (l ++ [p]) v = if u.cv p.1 p.2 = (v : Int) then seen u l v ++ [p.1] else seen u l v := by
  by_cases h : u.cv p.1 p.2 = (v : Int) <;> simp [seen, h]

/-- The state after the pairs of `l`. -/
structure TabInv (cap : Nat) (u : UG) (l : List (Nat × Nat)) (s : V2C) : Prop where
  fits : ∀ v, (seen u l v).length ≤ cap
  num : ∀ v, s.num v = (seen u l v).length
  tab : ∀ v r, s.tab r v = if h : r < (seen u l v).length then (((seen u l v)[r] : Nat) : Int) else -1

theorem TabInv.step {cap : Nat} {u : UG} {l : List (Nat × Nat)} {s : V2C} (h : TabInv cap u l s) (p : Nat × Nat) :
    (∃ s', v2cStep cap u p.1 p.2 s = .ok s' ∧ TabInv cap u (l ++ [p]) s')
      ∨ (v2cStep cap u p.1 p.2 s = .ub ∧ ∃ v, cap < (seen u (l ++ [p]) v).length) := by
  unfold v2cStep
  by_cases hneg : u.cv p.1 p.2 < 0
  · left
    have e : ∀ v, seen u (l ++ [p]) v = seen u l v := by
      intro v; rw [seen_snoc, if_neg (by omega)]
    refine ⟨s, if_pos hneg, ⟨?_, ?_, ?_⟩⟩
    · intro v; rw [e]; exact h.fits v
    · intro v; rw [e]; exact h.num v
    · intro v r; simp only [e]; exact h.tab v r
  · rw [if_neg hneg]
    obtain ⟨w, hw⟩ : ∃ w : Nat, u.cv p.1 p.2 = (w : Int) := ⟨(u.cv p.1 p.2).toNat, by omega⟩
    have hv : (u.cv p.1 p.2).toNat = w := by omega
    simp only [hv]
    have e : ∀ v, seen u (l ++ [p]) v = if v = w then seen u l v ++ [p.1] else seen u l v := by
      intro v
      rw [seen_snoc, hw]
      by_cases hvw : v = w
      · subst hvw; rw [if_pos rfl, if_pos rfl]
      · rw [if_neg (by omega), if_neg hvw]
    by_cases hc : s.num w < cap
    · left
      rw [if_pos hc]
      have inv : TabInv cap u (l ++ [p]) ⟨wr s.num w (s.num w + 1), wr2 s.tab (s.num w) w p.1⟩ := by
        refine ⟨?_, ?_, ?_⟩
        · intro v
          rw [e]
          by_cases hvw : v = w
          · subst hvw
            have := h.num v
            rw [if_pos rfl, List.length_append, List.length_singleton]; omega
          · rw [if_neg hvw]; exact h.fits v
        · intro v
          show wr s.num w (s.num w + 1) v = _
          rw [e]
          by_cases hvw : v = w
          · subst hvw
            rw [if_pos rfl, wr_same, List.length_append, List.length_singleton, h.num]
          · rw [if_neg hvw, wr_other _ _ hvw, h.num]
        · intro v r
          show wr2 s.tab (s.num w) w (p.1 : Int) r v = _
          simp only [e]
          by_cases hvw : v = w
          · subst hvw
            simp only [if_true, List.length_append, List.length_singleton]
            by_cases hr : r = (seen u l v).length
            · subst hr
              rw [h.num, wr2_same, dif_pos (by omega)]
              simp
            · rw [wr2_other _ _ (by rw [h.num]; exact fun hh => hr hh.1), h.tab]
              by_cases hr' : r < (seen u l v).length
              · rw [dif_pos hr', dif_pos (by omega), List.getElem_append_left hr']
              · rw [dif_neg hr', dif_neg (by omega)]
          · simp only [hvw, if_false]
            rw [wr2_other _ _ (fun hh => hvw hh.2), h.tab]
      refine ⟨_, if_neg ?_, inv⟩
      have h1 := inv.num p.2
      have h2 := inv.fits p.2
      simp only [] at h1 ⊢
      omega
    · right
      refine ⟨if_neg hc, w, ?_⟩
      rw [e, if_pos rfl, List.length_append, List.length_singleton, ← h.num]
      omega

theorem foldl_ub {σ α : Type} (f : α → σ → Res σ) (l : List α) :
    l.foldl (fun (r : Res σ) a => r.bind (f a)) (Res.ub : Res σ) = .ub := by
  induction l with
  | nil => rfl
  | cons a l ih => exact ih

theorem foldl_v2c (cap : Nat) (u : UG) (l : List (Nat × Nat)) :
    (∃ s, l.foldl (fun (r : Res V2C) p => r.bind (v2cStep cap u p.1 p.2)) (.ok ⟨fun _ => 0, fun _ _ => -1⟩) = .ok s
        ∧ TabInv cap u l s)
      ∨ (l.foldl (fun (r : Res V2C) p => r.bind (v2cStep cap u p.1 p.2)) (.ok ⟨fun _ => 0, fun _ _ => -1⟩) = .ub
        ∧ ∃ v, cap < (seen u l v).length) := by
  induction l using List.reverseRecOn with
  | nil => exact .inl ⟨_, rfl, by refine ⟨?_, ?_, ?_⟩ <;> intros <;> simp [seen]⟩
  | append_singleton l p ih =>
    rw [List.foldl_append]
    rcases ih with ⟨s, e, inv⟩ | ⟨e, v, hv⟩
    · rw [e]; exact inv.step p
    · right
      rw [e]
      refine ⟨rfl, v, ?_⟩
      rw [seen_snoc]
      split
      · rw [List.length_append]; omega
      · exact hv

/-- The two ways in which SetupMap_V2C ends. -/
theorem setupV2C_outcome (cap : Nat) (u : UG) :
    (∃ s, setupV2C cap u = .ok s ∧ TabInv cap u (corners u) s)
      ∨ (setupV2C cap u = .ub ∧ ∃ v : Nat, cap < (cellsAt u v).length) := by
  have e : setupV2C cap u = (corners u).foldl (fun (r : Res V2C) p => r.bind (v2cStep cap u p.1 p.2))
      (.ok ⟨fun _ => 0, fun _ _ => -1⟩) :=
    forN_corners u (fun i k (r : Res V2C) => r.bind (v2cStep cap u i k)) _
  rw [e]
  simp only [← seen_corners]
  exact foldl_v2c cap u (corners u)

end TDy.Custom.Proofs
