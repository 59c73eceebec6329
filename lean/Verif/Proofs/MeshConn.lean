import Mathlib.Data.List.Range
import Mathlib.Data.List.Nodup
import Verif.Spec.MeshConn

/-!
# Lemmas on the connectivity of a mesh
-/

namespace TDy.Mesh.Proofs

open TDy
open Spec

theorem wr2_same {α : Type} (a : Nat → Nat → α) (i j : Nat) (v : α) : wr2 a i j v i j = v := by
  simp [wr2]

theorem wr2_other {α : Type} (a : Nat → Nat → α) {i j i' j' : Nat} (v : α) (h : ¬ (i' = i ∧ j' = j)) :
    wr2 a i j v i' j' = a i' j' := by
  simp [wr2, h]

/-- The first free slot is the one after the used ones. -/
theorem firstFree_eq (cap len : Nat) (free : Int → Bool) (a : Nat → Int)
    (hu : ∀ j < len, free (a j) = false) (hf : ∀ j, len ≤ j → j < cap → free (a j) = true) :
    firstFree cap free a = if len < cap then some len else none := by
  unfold firstFree
  by_cases h : len < cap
  · rw [if_pos h, List.find?_range_eq_some]
    refine ⟨hf len (le_refl _) h, by simpa using h, fun j hj => by simp [hu j hj]⟩
  · rw [if_neg h, List.find?_eq_none]
    intro j hj
    rw [List.mem_range] at hj
    rw [hu j (by omega)]
    simp

theorem vertsOf_append (a b : List Point) : vertsOf (a ++ b) = vertsOf a ++ vertsOf b := by
  induction a with
  | nil => rfl
  | cons p rest ih => cases p <;> simp [vertsOf, ih]

theorem facesOf_append (a b : List Point) : facesOf (a ++ b) = facesOf a ++ facesOf b := by
  induction a with
  | nil => rfl
  | cons p rest ih => cases p <;> simp [facesOf, ih]

theorem occurrences_append (c : Nat) (l : List Nat) (w v : Nat) :
    occurrences c (l ++ [w]) v
      = occurrences c l v ++ (if w = v then [(c, l.length)] else []) := by
  unfold occurrences
  rw [List.zipIdx_append, List.filter_append, List.map_append]
  congr 1
  by_cases h : w = v <;> simp [h]

/-- What the tables contain, given the incidences met so far. -/
structure ConnInv (cap : Nat) (vI : Nat → List (Nat × Nat)) (fI cv cf : Nat → List Nat) (s : Conn) :
    Prop where
  vlen : ∀ v, s.vNum v = (vI v).length
  vcap : ∀ v, (vI v).length ≤ cap
  vcells : ∀ v j p, (vI v)[j]? = some p → s.vCells v j = (p.1 : Int) ∧ s.vSub v j = (p.2 : Int)
  vfree : ∀ v j, (vI v).length ≤ j → s.vCells v j = -1
  fnum : ∀ f, s.fNum f = min 2 (fI f).length
  fcells : ∀ (f j c : Nat), j < 2 → (fI f)[j]? = some c → s.fCells f j = (c : Int)
  ffree : ∀ f j, (fI f).length ≤ j ∨ 2 ≤ j → s.fCells f j = -1
  cverts : ∀ c k (v : Nat), (cv c)[k]? = some v → s.cellVerts c k = (v : Int)
  cfaces : ∀ c k (f : Nat), (cf c)[k]? = some f → s.cellFaces c k = (f : Int)

theorem ConnInv.firstFree_vertex {cap : Nat} {vI fI cv cf s} (h : ConnInv cap vI fI cv cf s) (v : Nat) :
    firstFree cap (fun x => decide (x = -1)) (s.vCells v)
      = if (vI v).length < cap then some (vI v).length else none := by
  refine firstFree_eq cap _ _ _ ?_ ?_
  · intro j hj
    have h1 : (vI v)[j]? = some ((vI v)[j]) := List.getElem?_eq_getElem hj
    rw [(h.vcells v j _ h1).1]
    simp only [decide_eq_false_iff_not]
    omega
  · intro j hj _
    rw [h.vfree v j hj]
    rfl

theorem ConnInv.firstFree_face {cap : Nat} {vI fI cv cf s} (h : ConnInv cap vI fI cv cf s) (f : Nat) :
    firstFree 2 (fun x => decide (x < 0)) (s.fCells f)
      = if (fI f).length < 2 then some (fI f).length else none := by
  by_cases hl : (fI f).length ≤ 2
  · refine firstFree_eq 2 _ _ _ ?_ ?_
    · intro j hj
      have h1 : (fI f)[j]? = some ((fI f)[j]) := List.getElem?_eq_getElem hj
      rw [h.fcells f j _ (by omega) h1]
      simp only [decide_eq_false_iff_not]
      omega
    · intro j hj _
      rw [h.ffree f j (Or.inl hj)]
      rfl
  · rw [if_neg (by omega), firstFree_eq 2 2 _ _ ?_ (fun j h1 h2 => by omega), if_neg (by omega)]
    intro j hj
    have h1 : (fI f)[j]? = some ((fI f)[j]) := List.getElem?_eq_getElem (by omega)
    rw [h.fcells f j _ hj h1]
    simp only [decide_eq_false_iff_not]
    omega

theorem getElem?_snoc {α : Type} (l : List α) (x : α) (j : Nat) (y : α)
    (h : (l ++ [x])[j]? = some y) : (j = l.length ∧ y = x) ∨ l[j]? = some y := by
  rcases Nat.lt_trichotomy j l.length with h1 | h1 | h1
  · right
    rwa [List.getElem?_append_left h1] at h
  · left
    subst h1
    simp at h
    exact ⟨rfl, h.symm⟩
  · exfalso
    rw [List.getElem?_eq_none (by simp; omega)] at h
    simp at h

theorem lt_of_getElem? {α : Type} {l : List α} {j : Nat} {y : α} (h : l[j]? = some y) :
    j < l.length := by
  by_contra hn
  rw [List.getElem?_eq_none (by omega)] at h
  simp at h

theorem addVertex_ok {cap c v : Nat} {vI fI cv cf s} (h : ConnInv cap vI fI cv cf s)
    (hc : s.c2v = (cv c).length) {vI' : Nat → List (Nat × Nat)} {cv' : Nat → List Nat}
    (hv : vI' v = vI v ++ [(c, (cv c).length)]) (hvo : ∀ w, w ≠ v → vI' w = vI w)
    (hcv : cv' c = cv c ++ [v]) (hcvo : ∀ d, d ≠ c → cv' d = cv d)
    (hroom : (vI v).length < cap) :
    ∃ s', addVertex cap c v s = .ok s' ∧ ConnInv cap vI' fI cv' cf s'
      ∧ s'.c2v = s.c2v + 1 ∧ s'.c2f = s.c2f := by
  unfold addVertex
  rw [h.firstFree_vertex v, if_pos hroom]
  refine ⟨_, rfl, ?_, rfl, rfl⟩
  refine ⟨?_, ?_, ?_, ?_, h.fnum, h.fcells, h.ffree, ?_, h.cfaces⟩
  · intro w
    by_cases hw : w = v
    · subst hw
      simp [hv, h.vlen]
    · simp only []
      rw [wr_other _ _ hw, hvo w hw, h.vlen]
  · intro w
    by_cases hw : w = v
    · subst hw
      rw [hv, List.length_append]
      simp only [List.length_singleton]
      omega
    · rw [hvo w hw]; exact h.vcap w
  · intro w j p hp
    by_cases hw : w = v
    · subst hw
      rw [hv] at hp
      rcases getElem?_snoc _ _ _ _ hp with ⟨h1, h2⟩ | h1
      · subst h1; subst h2
        simp only [wr2_same, hc, and_self]
      · have hj := lt_of_getElem? h1
        simp only []
        rw [wr2_other _ _ (by omega), wr2_other _ _ (by omega)]
        exact h.vcells w j p h1
    · rw [hvo w hw] at hp
      simp only []
      rw [wr2_other _ _ (by tauto), wr2_other _ _ (by tauto)]
      exact h.vcells w j p hp
  · intro w j hj
    by_cases hw : w = v
    · subst hw
      rw [hv, List.length_append] at hj
      simp only [List.length_singleton] at hj
      simp only []
      rw [wr2_other _ _ (by omega)]
      exact h.vfree w j (by omega)
    · rw [hvo w hw] at hj
      simp only []
      rw [wr2_other _ _ (by tauto)]
      exact h.vfree w j hj
  · intro d k w hw
    by_cases hd : d = c
    · subst hd
      rw [hcv] at hw
      rcases getElem?_snoc _ _ _ _ hw with ⟨h1, h2⟩ | h1
      · subst h1; subst h2
        simp only [← hc, wr2_same]
      · have hk := lt_of_getElem? h1
        simp only []
        rw [wr2_other _ _ (by omega)]
        exact h.cverts d k w h1
    · rw [hcvo d hd] at hw
      simp only []
      rw [wr2_other _ _ (by tauto)]
      exact h.cverts d k w hw

theorem addVertex_err {cap c v : Nat} {vI fI cv cf s} (h : ConnInv cap vI fI cv cf s)
    (hfull : ¬ (vI v).length < cap) : ∃ s', addVertex cap c v s = .err s' := by
  unfold addVertex
  rw [h.firstFree_vertex v, if_neg hfull]
  exact ⟨_, rfl⟩

theorem addFace_inv {cap c f : Nat} {vI fI cv cf s} (h : ConnInv cap vI fI cv cf s)
    (hc : s.c2f = (cf c).length) {fI' cf' : Nat → List Nat}
    (hf : fI' f = fI f ++ [c]) (hfo : ∀ g, g ≠ f → fI' g = fI g)
    (hcf : cf' c = cf c ++ [f]) (hcfo : ∀ d, d ≠ c → cf' d = cf d) :
    ConnInv cap vI fI' cv cf' (addFace c f s) ∧ (addFace c f s).c2f = s.c2f + 1
      ∧ (addFace c f s).c2v = s.c2v := by
  have hcfaces : ∀ d k (g : Nat), (cf' d)[k]? = some g → wr2 s.cellFaces c s.c2f (f : Int) d k = (g : Int) := by
    intro d k g hg
    by_cases hd : d = c
    · subst hd
      rw [hcf] at hg
      rcases getElem?_snoc _ _ _ _ hg with ⟨h1, h2⟩ | h1
      · subst h1; subst h2
        rw [← hc, wr2_same]
      · have hk := lt_of_getElem? h1
        rw [wr2_other _ _ (by omega)]
        exact h.cfaces d k g h1
    · rw [hcfo d hd] at hg
      rw [wr2_other _ _ (by tauto)]
      exact h.cfaces d k g hg
  unfold addFace
  rw [h.firstFree_face f]
  by_cases hl : (fI f).length < 2
  · rw [if_pos hl]
    refine ⟨⟨h.vlen, h.vcap, h.vcells, h.vfree, ?_, ?_, ?_, h.cverts, hcfaces⟩, rfl, rfl⟩
    · intro g
      by_cases hg : g = f
      · subst hg
        simp only [wr_same, hf, List.length_append, List.length_singleton, h.fnum]
        omega
      · simp only []
        rw [wr_other _ _ hg, hfo g hg, h.fnum]
    · intro g j d hj hd
      by_cases hg : g = f
      · subst hg
        rw [hf] at hd
        rcases getElem?_snoc _ _ _ _ hd with ⟨h1, h2⟩ | h1
        · subst h1; subst h2
          simp only [wr2_same]
        · have hk := lt_of_getElem? h1
          simp only []
          rw [wr2_other _ _ (by omega)]
          exact h.fcells g j d hj h1
      · rw [hfo g hg] at hd
        simp only []
        rw [wr2_other _ _ (by tauto)]
        exact h.fcells g j d hj hd
    · intro g j hj
      by_cases hg : g = f
      · subst hg
        rw [hf, List.length_append, List.length_singleton] at hj
        simp only []
        rw [wr2_other _ _ (by omega)]
        exact h.ffree g j (by omega)
      · rw [hfo g hg] at hj
        simp only []
        rw [wr2_other _ _ (by tauto)]
        exact h.ffree g j hj
  · rw [if_neg hl]
    refine ⟨⟨h.vlen, h.vcap, h.vcells, h.vfree, ?_, ?_, ?_, h.cverts, hcfaces⟩, rfl, rfl⟩
    · intro g
      by_cases hg : g = f
      · subst hg
        rw [h.fnum, hf, List.length_append, List.length_singleton]
        omega
      · rw [hfo g hg, h.fnum]
    · intro g j d hj hd
      by_cases hg : g = f
      · subst hg
        rw [hf] at hd
        rcases getElem?_snoc _ _ _ _ hd with ⟨h1, h2⟩ | h1
        · omega
        · exact h.fcells g j d hj h1
      · rw [hfo g hg] at hd
        exact h.fcells g j d hj hd
    · intro g j hj
      by_cases hg : g = f
      · subst hg
        rw [hf, List.length_append, List.length_singleton] at hj
        exact h.ffree g j (by omega)
      · rw [hfo g hg] at hj
        exact h.ffree g j hj

theorem ConnInv.congr {cap : Nat} {vI vI' fI fI' cv cv' cf cf' s} (h : ConnInv cap vI fI cv cf s)
    (h1 : ∀ v, vI' v = vI v) (h2 : ∀ f, fI' f = fI f) (h3 : ∀ c, cv' c = cv c)
    (h4 : ∀ c, cf' c = cf c) : ConnInv cap vI' fI' cv' cf' s := by
  rw [show vI' = vI from funext h1, show fI' = fI from funext h2, show cv' = cv from funext h3,
    show cf' = cf from funext h4]
  exact h

/-! Incidences after the cells before `c` and the points `pts` of cell `c`. -/

/-- (cell, position) pairs. -/
def vInc (m : Plex) (c : Nat) (pts : List Point) (v : Nat) : List (Nat × Nat) :=
  cellsAt m c v ++ occurrences c (vertsOf pts) v

/-- Cells behind a face. -/
def fInc (m : Plex) (c : Nat) (pts : List Point) (f : Nat) : List Nat :=
  cellsBehind m c f ++ ((facesOf pts).filter (fun g => decide (g = f))).map (fun _ => c)

/-- Vertices of the cells. -/
def cvInc (m : Plex) (c : Nat) (pts : List Point) (d : Nat) : List Nat :=
  if d < c then vertsOf (m.closure d) else if d = c then vertsOf pts else []

/-- Faces of the cells. -/
def cfInc (m : Plex) (c : Nat) (pts : List Point) (d : Nat) : List Nat :=
  if d < c then facesOf (m.closure d) else if d = c then facesOf pts else []

theorem vInc_next (m : Plex) (c v : Nat) : vInc m c (m.closure c) v = vInc m (c + 1) [] v := by
  simp [vInc, cellsAt, List.range_succ, vertsOf, occurrences]

theorem fInc_next (m : Plex) (c f : Nat) : fInc m c (m.closure c) f = fInc m (c + 1) [] f := by
  simp [fInc, cellsBehind, List.range_succ, facesOf]

theorem cvInc_next (m : Plex) (c d : Nat) : cvInc m c (m.closure c) d = cvInc m (c + 1) [] d := by
  unfold cvInc
  by_cases h1 : d < c
  · rw [if_pos h1, if_pos (by omega)]
  · rw [if_neg h1]
    by_cases h2 : d = c
    · rw [if_pos h2, if_pos (by omega), h2]
    · rw [if_neg h2, if_neg (by omega)]
      simp [vertsOf]

theorem cfInc_next (m : Plex) (c d : Nat) : cfInc m c (m.closure c) d = cfInc m (c + 1) [] d := by
  unfold cfInc
  by_cases h1 : d < c
  · rw [if_pos h1, if_pos (by omega)]
  · rw [if_neg h1]
    by_cases h2 : d = c
    · rw [if_pos h2, if_pos (by omega), h2]
    · rw [if_neg h2, if_neg (by omega)]
      simp [facesOf]

/-- The outcome of a run that has met the given incidences. -/
structure Outcome (cap : Nat) (m : Plex) (c : Nat) (pts : List Point) (r : Res Conn) : Prop where
  inv : ∀ s, r = .ok s → ConnInv cap (vInc m c pts) (fInc m c pts) (cvInc m c pts) (cfInc m c pts) s
    ∧ s.c2v = (vertsOf pts).length ∧ s.c2f = (facesOf pts).length
  noUb : r ≠ .ub
  succeeds : (∀ v, (vInc m c pts v).length ≤ cap) → ∃ s, r = .ok s

theorem outcome_step {cap : Nat} {m : Plex} {c : Nat} {pts : List Point} {r : Res Conn}
    (h : Outcome cap m c pts r) (p : Point) :
    Outcome cap m c (pts ++ [p]) (r.bind (fun s => addPoint cap c s p)) := by
  have hmono : ∀ v, (vInc m c pts v).length ≤ (vInc m c (pts ++ [p]) v).length := by
    intro v
    unfold vInc
    rw [vertsOf_append]
    cases p with
    | vertex w =>
      rw [show vertsOf [Point.vertex w] = [w] from rfl, occurrences_append]
      simp
    | edge e => simp [vertsOf]
    | face f => simp [vertsOf]
    | cell d => simp [vertsOf]
  have hself : ∀ s, r = .ok s → cvInc m c pts c = vertsOf pts ∧ cfInc m c pts c = facesOf pts := by
    intro s _
    simp [cvInc, cfInc]
  cases hr : r with
  | ub => exact absurd hr h.noUb
  | err s =>
    refine ⟨fun s' hs' => by simp [Res.bind] at hs', by simp [Res.bind], ?_⟩
    intro hall
    obtain ⟨s', hs'⟩ := h.succeeds (fun v => le_trans (hmono v) (hall v))
    rw [hr] at hs'
    simp at hs'
  | ok s =>
    obtain ⟨hI, hc2v, hc2f⟩ := h.inv s hr
    obtain ⟨hcv, hcf⟩ := hself s hr
    simp only [Res.bind]
    cases p with
    | edge e =>
      simp only [addPoint]
      refine ⟨fun s' hs' => ?_, by simp, fun _ => ⟨s, rfl⟩⟩
      simp only [Res.ok.injEq] at hs'
      subst hs'
      refine ⟨hI.congr ?_ ?_ ?_ ?_, ?_, ?_⟩ <;>
        intros <;>
        simp [vInc, fInc, cvInc, cfInc, vertsOf_append, facesOf_append, vertsOf, facesOf, hc2v, hc2f]
    | cell e =>
      simp only [addPoint]
      refine ⟨fun s' hs' => ?_, by simp, fun _ => ⟨s, rfl⟩⟩
      simp only [Res.ok.injEq] at hs'
      subst hs'
      refine ⟨hI.congr ?_ ?_ ?_ ?_, ?_, ?_⟩ <;>
        intros <;>
        simp [vInc, fInc, cvInc, cfInc, vertsOf_append, facesOf_append, vertsOf, facesOf, hc2v, hc2f]
    | face f =>
      simp only [addPoint]
      obtain ⟨hI', h1, h2⟩ := addFace_inv (c := c) (f := f) hI (by rw [hc2f, hcf])
        (fI' := fInc m c (pts ++ [Point.face f])) (cf' := cfInc m c (pts ++ [Point.face f]))
        (by simp [fInc, facesOf_append, facesOf])
        (by
          intro g hg
          have : ¬ f = g := fun e => hg e.symm
          simp [fInc, facesOf_append, facesOf, this])
        (by simp [cfInc, facesOf_append, facesOf])
        (by
          intro d hd
          simp [cfInc, hd])
      refine ⟨fun s' hs' => ?_, by simp, fun _ => ⟨_, rfl⟩⟩
      simp only [Res.ok.injEq] at hs'
      subst hs'
      refine ⟨hI'.congr ?_ (fun _ => rfl) ?_ (fun _ => rfl), ?_, ?_⟩
      · intro v; simp [vInc, vertsOf_append, vertsOf]
      · intro d; simp [cvInc, vertsOf_append, vertsOf]
      · rw [h2, hc2v, vertsOf_append]; simp [vertsOf]
      · rw [h1, hc2f, facesOf_append]; simp [facesOf]
    | vertex v =>
      simp only [addPoint]
      have hvI : vInc m c (pts ++ [Point.vertex v]) v
          = vInc m c pts v ++ [(c, (cvInc m c pts c).length)] := by
        rw [hcv]
        simp only [vInc, vertsOf_append]
        rw [show vertsOf [Point.vertex v] = [v] from rfl, occurrences_append, if_pos rfl,
          List.append_assoc]
      by_cases hroom : (vInc m c pts v).length < cap
      · obtain ⟨s', hs', hI', h1, h2⟩ := addVertex_ok (c := c) (v := v) hI (by rw [hc2v, hcv])
          (vI' := vInc m c (pts ++ [Point.vertex v])) (cv' := cvInc m c (pts ++ [Point.vertex v]))
          hvI
          (by
            intro w hw
            simp only [vInc, vertsOf_append]
            rw [show vertsOf [Point.vertex v] = [v] from rfl, occurrences_append,
              if_neg (fun e => hw e.symm), List.append_nil])
          (by simp [cvInc, vertsOf_append, vertsOf])
          (by
            intro d hd
            simp [cvInc, hd])
          hroom
        rw [hs']
        refine ⟨fun s'' hs'' => ?_, by simp, fun _ => ⟨_, rfl⟩⟩
        simp only [Res.ok.injEq] at hs''
        subst hs''
        refine ⟨hI'.congr (fun _ => rfl) ?_ (fun _ => rfl) ?_, ?_, ?_⟩
        · intro f; simp [fInc, facesOf_append, facesOf]
        · intro d; simp [cfInc, facesOf_append, facesOf]
        · rw [h1, hc2v, vertsOf_append]; simp [vertsOf]
        · rw [h2, hc2f, facesOf_append]; simp [facesOf]
      · obtain ⟨s', hs'⟩ := addVertex_err (c := c) hI hroom
        rw [hs']
        refine ⟨fun s'' hs'' => by simp at hs'', by simp, ?_⟩
        intro hall
        exfalso
        have := hall v
        rw [hvI, List.length_append, List.length_singleton] at this
        omega

theorem outcome_fold {cap : Nat} {m : Plex} {c : Nat} {r : Res Conn} (h : Outcome cap m c [] r)
    (pts : List Point) :
    Outcome cap m c pts (pts.foldl (fun r p => r.bind (fun s => addPoint cap c s p)) r) := by
  induction pts using List.reverseRecOn with
  | nil => exact h
  | append_singleton pts p ih =>
    rw [List.foldl_append]
    exact outcome_step ih p

theorem foldl_bind_err {σ : Type} {α : Type} (f : α → σ → Res σ) (l : List α) (s : σ) :
    l.foldl (fun (r : Res σ) p => r.bind (f p)) (Res.err s) = Res.err s := by
  induction l with
  | nil => rfl
  | cons a l ih => exact ih

/-- The same between two cells, when the counters do not matter. -/
structure Between (cap : Nat) (m : Plex) (c : Nat) (r : Res Conn) : Prop where
  inv : ∀ s, r = .ok s → ConnInv cap (vInc m c []) (fInc m c []) (cvInc m c []) (cfInc m c []) s
  noUb : r ≠ .ub
  succeeds : (∀ v, (vInc m c [] v).length ≤ cap) → ∃ s, r = .ok s

theorem between_cell {cap : Nat} {m : Plex} {c : Nat} {r : Res Conn} (h : Between cap m c r) :
    Between cap m (c + 1) (r.bind (connectCell cap m c)) := by
  have h' : Outcome cap m c [] (r.bind (fun s => .ok { s with c2v := 0, c2f := 0 })) := by
    cases hr : r with
    | ub => exact absurd hr h.noUb
    | err s =>
      refine ⟨fun s' hs' => by simp [Res.bind] at hs', by simp [Res.bind], ?_⟩
      intro hall
      obtain ⟨s', hs'⟩ := h.succeeds hall
      rw [hr] at hs'; simp at hs'
    | ok s =>
      have hI := h.inv s hr
      refine ⟨fun s' hs' => ?_, by simp [Res.bind], fun _ => ⟨_, rfl⟩⟩
      simp only [Res.bind, Res.ok.injEq] at hs'
      subst hs'
      exact ⟨⟨hI.vlen, hI.vcap, hI.vcells, hI.vfree, hI.fnum, hI.fcells, hI.ffree, hI.cverts,
        hI.cfaces⟩, rfl, rfl⟩
  have h2 := outcome_fold h' (m.closure c)
  have heq : (m.closure c).foldl (fun r p => r.bind (fun s => addPoint cap c s p))
      (r.bind (fun s => .ok { s with c2v := 0, c2f := 0 })) = r.bind (connectCell cap m c) := by
    cases hr : r with
    | ub => exact absurd hr h.noUb
    | err s =>
      simp only [Res.bind]
      exact foldl_bind_err (fun p s => addPoint cap c s p) (m.closure c) s
    | ok s => rfl
  rw [heq] at h2
  refine ⟨?_, h2.noUb, ?_⟩
  · intro s hs
    obtain ⟨hI, _, _⟩ := h2.inv s hs
    refine hI.congr ?_ ?_ ?_ ?_
    · intro v; exact (vInc_next m c v).symm
    · intro f; exact (fInc_next m c f).symm
    · intro d; exact (cvInc_next m c d).symm
    · intro d; exact (cfInc_next m c d).symm
  · intro hall
    exact h2.succeeds (fun v => by rw [vInc_next]; exact hall v)

theorem between_all (cap : Nat) (m : Plex) : Between cap m m.nCells (connectCells cap m) := by
  refine forN_invariant m.nCells (fun c r => r.bind (connectCell cap m c)) (.ok conn0)
    (fun c r => Between cap m c r) ?_ (fun c r _ h => between_cell h)
  refine ⟨fun s hs => ?_, by simp, fun _ => ⟨_, rfl⟩⟩
  simp only [Res.ok.injEq] at hs
  subst hs
  constructor <;> simp [conn0, vInc, fInc, cvInc, cfInc, cellsAt, cellsBehind, occurrences, vertsOf,
    facesOf]

/-! ## Faces -/

/-- What the face tables contain, given the incidences met so far. -/
structure FInv (vl : Nat → List (Nat × Nat)) (fl bl : Nat → List Nat) (s : FConn) : Prop where
  vlen : ∀ v, s.vNumFaces v = (vl v).length
  vfaces : ∀ v j p, (vl v)[j]? = some p → s.vFaces v j = (p.1 : Int) ∧ s.vSubfaces v j = (p.2 : Int)
  flen : ∀ f, s.fNumVerts f = (fl f).length
  fverts : ∀ f k (v : Nat), (fl f)[k]? = some v → s.fVerts f k = (v : Int)
  blen : ∀ v, s.vNumB v = (bl v).length
  bfaces : ∀ v j (f : Nat), (bl v)[j]? = some f → s.vB v j = (f : Int)

theorem FInv.congr {vl vl' fl fl' bl bl' s} (h : FInv vl fl bl s) (h1 : ∀ v, vl' v = vl v)
    (h2 : ∀ f, fl' f = fl f) (h3 : ∀ v, bl' v = bl v) : FInv vl' fl' bl' s := by
  rw [show vl' = vl from funext h1, show fl' = fl from funext h2, show bl' = bl from funext h3]
  exact h

theorem FInv.found_iff {vl fl bl s} (h : FInv vl fl bl s) (f v : Nat) :
    (List.range (s.vNumFaces v)).any (fun i => decide (s.vFaces v i = (f : Int))) = true
      ↔ ∃ p ∈ vl v, p.1 = f := by
  rw [List.any_eq_true]
  constructor
  · rintro ⟨i, hi, he⟩
    rw [List.mem_range, h.vlen] at hi
    have h1 : (vl v)[i]? = some ((vl v)[i]) := List.getElem?_eq_getElem hi
    rw [decide_eq_true_eq, (h.vfaces v i _ h1).1] at he
    exact ⟨_, List.getElem_mem hi, by exact_mod_cast he⟩
  · rintro ⟨p, hp, rfl⟩
    obtain ⟨i, hi⟩ := List.mem_iff_getElem?.1 hp
    refine ⟨i, ?_, ?_⟩
    · rw [List.mem_range, h.vlen]; exact lt_of_getElem? hi
    · rw [decide_eq_true_eq]; exact (h.vfaces v i _ hi).1

theorem addFaceVertex_inv {vl fl bl s} (h : FInv vl fl bl s) (f v : Nat)
    {vl' : Nat → List (Nat × Nat)} {fl' : Nat → List Nat}
    (hf : fl' f = fl f ++ [v]) (hfo : ∀ g, g ≠ f → fl' g = fl g)
    (hold : (∃ p ∈ vl v, p.1 = f) → vl' v = vl v)
    (hnew : ¬ (∃ p ∈ vl v, p.1 = f) → vl' v = vl v ++ [(f, (fl f).length)])
    (hvo : ∀ w, w ≠ v → vl' w = vl w) : FInv vl' fl' bl (addFaceVertex f s v) := by
  have hfl : ∀ g, wr s.fNumVerts f (s.fNumVerts f + 1) g = (fl' g).length := by
    intro g
    by_cases hg : g = f
    · subst hg
      rw [wr_same, hf, h.flen]; simp
    · rw [wr_other _ _ hg, hfo g hg, h.flen]
  have hfv : ∀ g k (w : Nat), (fl' g)[k]? = some w →
      wr2 s.fVerts f (s.fNumVerts f) (v : Int) g k = (w : Int) := by
    intro g k w hw
    by_cases hg : g = f
    · subst hg
      rw [hf] at hw
      rcases getElem?_snoc _ _ _ _ hw with ⟨h1, h2⟩ | h1
      · subst h1; subst h2
        rw [← h.flen, wr2_same]
      · have hk := lt_of_getElem? h1
        rw [wr2_other _ _ (by rw [h.flen]; omega)]
        exact h.fverts g k w h1
    · rw [hfo g hg] at hw
      rw [wr2_other _ _ (by tauto)]
      exact h.fverts g k w hw
  by_cases hfound : ∃ p ∈ vl v, p.1 = f
  · have hb := (h.found_iff f v).2 hfound
    have hvl : ∀ w, vl' w = vl w := by
      intro w
      by_cases hw : w = v
      · rw [hw]; exact hold hfound
      · exact hvo w hw
    unfold addFaceVertex
    simp only [hb, if_true]
    refine ⟨?_, ?_, hfl, hfv, h.blen, h.bfaces⟩
    · intro w; rw [hvl w]; exact h.vlen w
    · intro w j p hp; rw [hvl w] at hp; exact h.vfaces w j p hp
  · have hb : (List.range (s.vNumFaces v)).any (fun i => decide (s.vFaces v i = (f : Int))) = false := by
      rw [Bool.eq_false_iff]
      exact fun e => hfound ((h.found_iff f v).1 e)
    have hv := hnew hfound
    unfold addFaceVertex
    simp only [hb, Bool.false_eq_true, if_false]
    refine ⟨?_, ?_, hfl, hfv, h.blen, h.bfaces⟩
    · intro w
      by_cases hw : w = v
      · subst hw
        simp only []
        rw [wr_same, hv, h.vlen]; simp
      · simp only []
        rw [wr_other _ _ hw, hvo w hw, h.vlen]
    · intro w j p hp
      by_cases hw : w = v
      · subst hw
        rw [hv] at hp
        rcases getElem?_snoc _ _ _ _ hp with ⟨h1, h2⟩ | h1
        · subst h1; subst h2
          simp only []
          rw [← h.vlen, wr2_same, wr2_same, h.flen]
          exact ⟨rfl, rfl⟩
        · have hk := lt_of_getElem? h1
          simp only []
          rw [wr2_other _ _ (by rw [h.vlen]; omega), wr2_other _ _ (by rw [h.vlen]; omega)]
          exact h.vfaces w j p h1
      · rw [hvo w hw] at hp
        simp only []
        rw [wr2_other _ _ (by tauto), wr2_other _ _ (by tauto)]
        exact h.vfaces w j p hp

/-- (face, position) pairs after the faces before `n` and the vertices `l` of face `n`. -/
def vfInc (m : Plex) (n : Nat) (l : List Nat) (v : Nat) : List (Nat × Nat) :=
  (facesAt m n v).map (fun f => (f, (m.faceVerts f).idxOf v))
    ++ (if v ∈ l then [(n, l.idxOf v)] else [])

/-- Vertices of the faces. -/
def fvInc (m : Plex) (n : Nat) (l : List Nat) (f : Nat) : List Nat :=
  if f < n then m.faceVerts f else if f = n then l else []

theorem vfInc_found (m : Plex) (n : Nat) (l : List Nat) (v : Nat) :
    (∃ p ∈ vfInc m n l v, p.1 = n) ↔ v ∈ l := by
  unfold vfInc
  constructor
  · rintro ⟨p, hp, rfl⟩
    rw [List.mem_append] at hp
    rcases hp with hp | hp
    · rw [List.mem_map] at hp
      obtain ⟨f, hf, he⟩ := hp
      simp only [facesAt, List.mem_filter, List.mem_range] at hf
      rw [← he] at hf
      simp at hf
    · by_contra hn
      rw [if_neg hn] at hp
      simp at hp
  · intro hv
    exact ⟨(n, l.idxOf v), by rw [if_pos hv]; simp, rfl⟩

theorem faceFold_inv {m : Plex} {n : Nat} {bl : Nat → List Nat} {s : FConn}
    (h : FInv (vfInc m n []) (fvInc m n []) bl s) (l : List Nat) :
    FInv (vfInc m n l) (fvInc m n l) bl (l.foldl (addFaceVertex n) s) := by
  induction l using List.reverseRecOn with
  | nil => exact h
  | append_singleton l v ih =>
    rw [List.foldl_append]
    refine addFaceVertex_inv ih n v ?_ ?_ ?_ ?_ ?_
    · simp [fvInc]
    · intro g hg
      simp [fvInc, hg]
    · intro hf
      have hv := (vfInc_found m n l v).1 hf
      unfold vfInc
      rw [if_pos hv, if_pos (List.mem_append_left _ hv), List.idxOf_append_of_mem hv]
    · intro hf
      have hv : v ∉ l := fun e => hf ((vfInc_found m n l v).2 e)
      unfold vfInc
      rw [if_neg hv, if_pos (by simp), List.idxOf_append_of_notMem hv]
      simp [fvInc]
    · intro w hw
      unfold vfInc
      by_cases hwl : w ∈ l
      · rw [if_pos hwl, if_pos (List.mem_append_left _ hwl), List.idxOf_append_of_mem hwl]
      · rw [if_neg hwl, if_neg (by simp [hwl, hw])]

/-- The loop over the vertices of a boundary face. -/
theorem boundaryLoop_inv {vl : Nat → List (Nat × Nat)} {fl bl : Nat → List Nat} {s : FConn}
    (h : FInv vl fl bl s) (f : Nat) (hnd : (fl f).Nodup) :
    FInv vl fl (fun v => bl v ++ (if v ∈ fl f then [f] else []))
      (forN (s.fNumVerts f) (fun k s => addBoundary f s k) s) := by
  have key : FInv vl fl (fun v => bl v ++ (if v ∈ (fl f).take (s.fNumVerts f) then [f] else []))
      (forN (s.fNumVerts f) (fun k s => addBoundary f s k) s) := by
    refine forN_invariant (s.fNumVerts f) (fun k s => addBoundary f s k) s
      (fun k t => FInv vl fl (fun v => bl v ++ (if v ∈ (fl f).take k then [f] else [])) t) ?_ ?_
    · simpa using h
    · intro k t hk hI
      have hk' : k < (fl f).length := by rw [← h.flen]; exact hk
      have hget : (fl f)[k]? = some ((fl f)[k]) := List.getElem?_eq_getElem hk'
      have hv : (t.fVerts f k).toNat = (fl f)[k] := by
        rw [hI.fverts f k _ hget]; exact Int.toNat_natCast _
      have hnot : (fl f)[k] ∉ (fl f).take k := by
        intro hmem
        obtain ⟨i, hi, he⟩ := List.mem_take_iff_getElem.1 hmem
        have := (hnd.getElem_inj_iff).1 he
        omega
      have htake : (fl f).take (k + 1) = (fl f).take k ++ [(fl f)[k]] := by
        rw [List.take_succ, hget]; rfl
      have hin : (fl f)[k] ∈ (fl f).take (k + 1) := by
        rw [htake]; exact List.mem_append_right _ (List.mem_singleton_self _)
      have hsame : ∀ w, w ≠ (fl f)[k] → (w ∈ (fl f).take (k + 1) ↔ w ∈ (fl f).take k) := by
        intro w hw
        rw [htake, List.mem_append, List.mem_singleton]
        tauto
      have hlen : t.vNumB ((fl f)[k]) = (bl ((fl f)[k])).length := by
        rw [hI.blen, if_neg hnot, List.append_nil]
      unfold addBoundary
      simp only [hv]
      refine ⟨hI.vlen, hI.vfaces, hI.flen, hI.fverts, ?_, ?_⟩
      · intro w
        beta_reduce
        by_cases hw : w = (fl f)[k]
        · subst hw
          rw [if_pos hin]
          simp only []
          rw [wr_same, hlen, List.length_append, List.length_singleton]
        · simp only []
          rw [wr_other _ _ hw, hI.blen, if_congr (hsame w hw) rfl rfl]
      · intro w j g hg
        beta_reduce at hg
        by_cases hw : w = (fl f)[k]
        · subst hw
          rw [if_pos hin] at hg
          simp only []
          rcases getElem?_snoc _ _ _ _ hg with ⟨h1, h2⟩ | h1
          · subst h1; subst h2
            rw [← hlen, wr2_same]
          · have hj := lt_of_getElem? h1
            rw [wr2_other _ _ (by rw [hlen]; omega)]
            refine hI.bfaces _ j g ?_
            rw [if_neg hnot, List.append_nil]
            exact h1
        · simp only []
          rw [wr2_other _ _ (by tauto)]
          refine hI.bfaces w j g ?_
          rw [if_congr (hsame w hw) rfl rfl] at hg
          exact hg
  have e : (fl f).take (s.fNumVerts f) = fl f := by rw [h.flen]; exact List.take_length
  rw [e] at key
  exact key

/-- All faces. -/
theorem facesAll_inv (m : Plex) (hnd : ∀ f < m.nFaces, (m.faceVerts f).Nodup) :
    FInv (vfInc m m.nFaces []) (fvInc m m.nFaces []) (boundaryAt m m.nFaces) (connectFaces m)
      ∧ ∀ f < m.nFaces, (connectFaces m).internal f = decide (m.supportSize f = 2) := by
  refine forN_invariant m.nFaces (connectFace m) fconn0
    (fun n s => FInv (vfInc m n []) (fvInc m n []) (boundaryAt m n) s
      ∧ ∀ f < n, s.internal f = decide (m.supportSize f = 2)) ?_ ?_
  · refine ⟨?_, fun f hf => by omega⟩
    constructor <;> simp [fconn0, vfInc, fvInc, facesAt, boundaryAt]
  · rintro n s hn ⟨hI, hint⟩
    have h1 := faceFold_inv hI (m.faceVerts n)
    have hintf : ∀ t : FConn, (∀ f < n, t.internal f = decide (m.supportSize f = 2)) →
        ∀ f < n + 1, wr t.internal n (decide (m.supportSize n = 2)) f
          = decide (m.supportSize f = 2) := by
      intro t ht f hf
      by_cases h : f = n
      · rw [h, wr_same]
      · rw [wr_other _ _ h]; exact ht f (by omega)
    have hfold : ∀ (l : List Nat) (t : FConn), (l.foldl (addFaceVertex n) t).internal = t.internal := by
      intro l
      induction l with
      | nil => intro t; rfl
      | cons a l ih => intro t; rw [List.foldl_cons, ih]; rfl
    have hbl : ∀ (k : Nat) (t : FConn),
        (forN k (fun k s => addBoundary n s k) t).internal = t.internal := by
      intro k
      induction k with
      | zero => intro t; rfl
      | succ k ih => intro t; simp only [forN]; exact ih t
    have hv : ∀ v, vfInc m (n + 1) [] v = vfInc m n (m.faceVerts n) v := by
      intro v
      unfold vfInc
      simp only [facesAt, List.range_succ, List.filter_append, List.map_append]
      by_cases h : v ∈ m.faceVerts n <;> simp [h]
    have hf : ∀ f, fvInc m (n + 1) [] f = fvInc m n (m.faceVerts n) f := by
      intro f
      unfold fvInc
      by_cases h1 : f < n
      · rw [if_pos h1, if_pos (by omega)]
      · rw [if_neg h1]
        by_cases h2 : f = n
        · rw [if_pos h2, if_pos (by omega), h2]
        · rw [if_neg h2, if_neg (by omega)]
          simp
    have h2 : FInv (vfInc m n (m.faceVerts n)) (fvInc m n (m.faceVerts n)) (boundaryAt m n)
        { (m.faceVerts n).foldl (addFaceVertex n) s with
          internal := wr ((m.faceVerts n).foldl (addFaceVertex n) s).internal n
            (decide (m.supportSize n = 2)) } :=
      ⟨h1.vlen, h1.vfaces, h1.flen, h1.fverts, h1.blen, h1.bfaces⟩
    unfold connectFace
    simp only [wr_same, decide_eq_true_eq]
    by_cases hs : m.supportSize n = 2
    · rw [if_pos hs]
      refine ⟨h2.congr hv hf ?_, ?_⟩
      · intro v
        simp [boundaryAt, List.range_succ, List.filter_append, hs]
      · exact hintf _ (by rw [hfold]; exact hint)
    · rw [if_neg hs]
      have hself : fvInc m n (m.faceVerts n) n = m.faceVerts n := by simp [fvInc]
      have h3 := boundaryLoop_inv h2 n (by rw [hself]; exact hnd n hn)
      refine ⟨h3.congr hv hf ?_, ?_⟩
      · intro v
        rw [hself]
        simp only [boundaryAt, List.range_succ, List.filter_append]
        congr 1
        by_cases h : v ∈ m.faceVerts n <;> simp [h, hs]
      · rw [hbl]
        exact hintf _ (by rw [hfold]; exact hint)

end TDy.Mesh.Proofs
