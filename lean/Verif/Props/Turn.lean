import Verif.Spec.Turn
import Verif.Props.Shift
import Verif.Props.MeshTraverse
import Mathlib.Tactic.FieldSimp
import Mathlib.Tactic.FinCases
import Mathlib.Tactic.LinearCombination
import Mathlib.Tactic.NormNum

/-!
# C218: the direction of the mesh does not matter
-/

namespace TDy.Geo.Props

open TDy.Geo.Spec

/-! ## Rotations -/

section vectors

variable (R : Rotation)

theorem dot_e (p q : P3) : dot p q = p.x * q.x + p.y * q.y + p.z * q.z := by
  simp only [dot]; ring

theorem rot_13 : R.e1.x * R.e3.x + R.e1.y * R.e3.y + R.e1.z * R.e3.z = 0 := by
  rw [R.third]; ring

theorem rot_23 : R.e2.x * R.e3.x + R.e2.y * R.e3.y + R.e2.z * R.e3.z = 0 := by
  rw [R.third]; ring

theorem rot_33 : R.e3.x * R.e3.x + R.e3.y * R.e3.y + R.e3.z * R.e3.z = 1 := by
  have h1 := R.length1
  have h2 := R.length2
  have h3 := R.right
  rw [R.third]
  linear_combination (R.e2.x * R.e2.x + R.e2.y * R.e2.y + R.e2.z * R.e2.z) * h1 + h2 -
    (R.e1.x * R.e2.x + R.e1.y * R.e2.y + R.e1.z * R.e2.z) * h3

theorem cross_12 : cross R.e1 R.e2 = R.e3 := by rw [R.third]; rfl

theorem cross_23 : cross R.e2 R.e3 = R.e1 := by
  have h2 := R.length2
  have h3 := R.right
  rw [R.third]
  ext <;> simp only [cross]
  · linear_combination R.e1.x * h2 - R.e2.x * h3
  · linear_combination R.e1.y * h2 - R.e2.y * h3
  · linear_combination R.e1.z * h2 - R.e2.z * h3

theorem cross_31 : cross R.e3 R.e1 = R.e2 := by
  have h1 := R.length1
  have h3 := R.right
  rw [R.third]
  ext <;> simp only [cross]
  · linear_combination R.e2.x * h1 - R.e1.x * h3
  · linear_combination R.e2.y * h1 - R.e1.y * h3
  · linear_combination R.e2.z * h1 - R.e1.z * h3

theorem dot_turn (p q : P3) : dot (turn R p) (turn R q) = dot p q := by
  simp only [dot_e, turn]
  linear_combination p.x * q.x * R.length1 + p.y * q.y * R.length2 + p.z * q.z * rot_33 R +
    (p.x * q.y + p.y * q.x) * R.right + (p.x * q.z + p.z * q.x) * rot_13 R +
    (p.y * q.z + p.z * q.y) * rot_23 R

theorem cross_turn (p q : P3) : cross (turn R p) (turn R q) = turn R (cross p q) := by
  have h1 := P3.ext_iff.1 (cross_12 R)
  have h2 := P3.ext_iff.1 (cross_23 R)
  have h3 := P3.ext_iff.1 (cross_31 R)
  simp only [cross] at h1 h2 h3
  obtain ⟨a1, a2, a3⟩ := h1
  obtain ⟨b1, b2, b3⟩ := h2
  obtain ⟨c1, c2, c3⟩ := h3
  ext <;> simp only [cross, turn]
  · linear_combination (p.x * q.y - p.y * q.x) * a1 + (p.y * q.z - p.z * q.y) * b1 +
      (p.z * q.x - p.x * q.z) * c1
  · linear_combination (p.x * q.y - p.y * q.x) * a2 + (p.y * q.z - p.z * q.y) * b2 +
      (p.z * q.x - p.x * q.z) * c2
  · linear_combination (p.x * q.y - p.y * q.x) * a3 + (p.y * q.z - p.z * q.y) * b3 +
      (p.z * q.x - p.x * q.z) * c3

theorem join_turn (p q : P3) : join (turn R p) (turn R q) = turn R (join p q) := by
  ext <;> simp only [join, turn] <;> ring

theorem add_turn (p q : P3) : (⟨(turn R p).x + (turn R q).x, (turn R p).y + (turn R q).y,
    (turn R p).z + (turn R q).z⟩ : P3) = turn R ⟨p.x + q.x, p.y + q.y, p.z + q.z⟩ := by
  ext <;> simp only [turn] <;> ring

theorem div_turn (p : P3) (k : ℝ) : (⟨(turn R p).x / k, (turn R p).y / k, (turn R p).z / k⟩ : P3) =
    turn R ⟨p.x / k, p.y / k, p.z / k⟩ := by
  ext <;> simp only [turn] <;> ring

theorem zero_turn : turn R ⟨0, 0, 0⟩ = ⟨0, 0, 0⟩ := by
  ext <;> simp [turn]

theorem norm_turn (p : P3) : norm (turn R p) = norm p := by
  have h := dot_turn R p p
  simp only [dot] at h
  simp only [norm, h]

theorem unit_turn (p : P3) : unit (turn R p) = turn R (unit p) := by
  simp only [unit, norm_turn, div_turn]

theorem mean4_turn (p q r s : P3) :
    mean4 (turn R p) (turn R q) (turn R r) (turn R s) = turn R (mean4 p q r s) := by
  ext <;> simp only [mean4, turn] <;> ring

theorem triangleArea_turn (p q r : P3) :
    triangleArea (turn R p) (turn R q) (turn R r) = triangleArea p q r := by
  simp only [triangleArea, join_turn, cross_turn, norm_turn]

theorem quadArea_turn (p q r s : P3) :
    quadArea (turn R p) (turn R q) (turn R r) (turn R s) = quadArea p q r s := by
  simp only [quadArea, mean4_turn, triangleArea_turn]

theorem normalTriangle_turn (p q r : P3) :
    normalTriangle (turn R p) (turn R q) (turn R r) = turn R (normalTriangle p q r) := by
  simp only [normalTriangle, join_turn, cross_turn]

theorem unitNormalTriangle_turn (p q r : P3) :
    unitNormalTriangle (turn R p) (turn R q) (turn R r) = turn R (unitNormalTriangle p q r) := by
  simp only [unitNormalTriangle, normalTriangle_turn, unit_turn]

theorem normalQuad_turn (p q r s : P3) :
    normalQuad (turn R p) (turn R q) (turn R r) (turn R s) = turn R (normalQuad p q r s) := by
  simp only [normalQuad, mean4_turn, unitNormalTriangle_turn]

theorem tetVolume_turn (p q r s : P3) :
    tetVolume (turn R p) (turn R q) (turn R r) (turn R s) = tetVolume p q r s := by
  simp only [tetVolume, join_turn, cross_turn, dot_turn]

theorem tetVolume2_turn (p q r s : P3) :
    tetVolume2 (turn R p) (turn R q) (turn R r) (turn R s) = tetVolume2 p q r s := by
  simp only [tetVolume2, join_turn, cross_turn, dot_turn]

theorem sumTets_turn (v : Nat → P3) (l : List (Nat × Nat × Nat × Nat)) :
    sumTets (fun i => turn R (v i)) l = sumTets v l := by
  simp only [sumTets, tetVolume2_turn]

theorem plane_turn (p q r : P3) :
    (⟨(planeOf (turn R p) (turn R q) (turn R r)).a, (planeOf (turn R p) (turn R q) (turn R r)).b,
      (planeOf (turn R p) (turn R q) (turn R r)).c⟩ : P3) =
      turn R ⟨(planeOf p q r).a, (planeOf p q r).b, (planeOf p q r).c⟩ ∧
    (planeOf (turn R p) (turn R q) (turn R r)).d = (planeOf p q r).d := by
  have h : ∀ p q r : P3, (⟨(planeOf p q r).a, (planeOf p q r).b, (planeOf p q r).c⟩ : P3) =
      normalTriangle p q r := fun _ _ _ => rfl
  have hd : ∀ p q r : P3, (planeOf p q r).d = -1 * dot (normalTriangle p q r) p := by
    intro p q r
    simp only [planeOf, dot_e, normalTriangle, cross, join]
  constructor
  · rw [h, h, normalTriangle_turn]
  · rw [hd, hd, normalTriangle_turn, dot_turn]

theorem intercept_turn (p q r u v : P3) :
    planeIntercept (planeOf (turn R p) (turn R q) (turn R r)) (turn R u) (turn R v) =
      turn R (planeIntercept (planeOf p q r) u v) := by
  obtain ⟨hn, hd⟩ := plane_turn R p q r
  generalize planeOf (turn R p) (turn R q) (turn R r) = P' at *
  generalize planeOf p q r = P at *
  have n : P'.a * (turn R u).x + P'.b * (turn R u).y + P'.c * (turn R u).z + P'.d =
      P.a * u.x + P.b * u.y + P.c * u.z + P.d := by
    have h := dot_turn R ⟨P.a, P.b, P.c⟩ u
    rw [← hn] at h
    simp only [dot_e] at h
    rw [h, hd]
  have m : P'.a * ((turn R u).x - (turn R v).x) + P'.b * ((turn R u).y - (turn R v).y) +
      P'.c * ((turn R u).z - (turn R v).z) =
      P.a * (u.x - v.x) + P.b * (u.y - v.y) + P.c * (u.z - v.z) := by
    have h := dot_turn R ⟨P.a, P.b, P.c⟩ (join v u)
    rw [← hn, ← join_turn] at h
    simpa only [dot_e, join] using h
  simp only [planeIntercept, n, m]
  ext <;> simp only [turn] <;> ring

theorem project_turn (p q r u : P3) :
    projectOnPlane (planeOf (turn R p) (turn R q) (turn R r)) (turn R u) =
      turn R (projectOnPlane (planeOf p q r) u) := by
  obtain ⟨hn, hd⟩ := plane_turn R p q r
  generalize planeOf (turn R p) (turn R q) (turn R r) = P' at *
  generalize planeOf p q r = P at *
  have n : P'.a * (turn R u).x + P'.b * (turn R u).y + P'.c * (turn R u).z + P'.d =
      P.a * u.x + P.b * u.y + P.c * u.z + P.d := by
    have h := dot_turn R ⟨P.a, P.b, P.c⟩ u
    rw [← hn] at h
    simp only [dot_e] at h
    rw [h, hd]
  have m : P'.a * P'.a + P'.b * P'.b + P'.c * P'.c = P.a * P.a + P.b * P.b + P.c * P.c := by
    have h := dot_turn R ⟨P.a, P.b, P.c⟩ ⟨P.a, P.b, P.c⟩
    rw [← hn] at h
    simpa only [dot_e] using h
  have ha := congrArg P3.x hn
  have hb := congrArg P3.y hn
  have hc := congrArg P3.z hn
  simp only at ha hb hc
  unfold projectOnPlane
  rw [n, m, ha, hb, hc]
  ext <;> simp only [turn] <;> ring

theorem mid_turn (p q : P3) :
    FaceGeom.mid (turn R p) (turn R q) = turn R (FaceGeom.mid p q) := by
  have e : (2.0 : ℝ) = 2 := by norm_num
  ext <;> simp only [FaceGeom.mid, turn, e] <;> ring

theorem add_div_turn (p q : P3) (k : ℝ) : (⟨((turn R p).x + (turn R q).x) / k,
    ((turn R p).y + (turn R q).y) / k, ((turn R p).z + (turn R q).z) / k⟩ : P3) =
    turn R ⟨(p.x + q.x) / k, (p.y + q.y) / k, (p.z + q.z) / k⟩ := by
  ext <;> simp only [turn] <;> ring

theorem innerAttr_turn (u v q : P3) :
    FaceGeom.innerAttr (turn R u) (turn R v) (turn R q) =
      ((FaceGeom.innerAttr u v q).1, (FaceGeom.innerAttr u v q).2.1,
        turn R (FaceGeom.innerAttr u v q).2.2.1, (FaceGeom.innerAttr u v q).2.2.2) := by
  simp only [FaceGeom.innerAttr, join_turn, dot_turn, add_turn, add_div_turn]

theorem triArea_turn (p q r : P3) :
    FaceGeom.triArea (turn R p) (turn R q) (turn R r) = FaceGeom.triArea p q r := by
  simp only [FaceGeom.triArea, join_turn, cross_turn, dot_turn]

theorem triAttr_turn (p q r u v n : P3) :
    FaceGeom.triAttr (turn R p) (turn R q) (turn R r) (turn R u) (turn R v) (turn R n) =
      ((FaceGeom.triAttr p q r u v n).1, (FaceGeom.triAttr p q r u v n).2.1,
        turn R (FaceGeom.triAttr p q r u v n).2.2) := by
  simp only [FaceGeom.triAttr, join_turn, cross_turn, dot_turn, div_turn, intercept_turn]

theorem ite_turn (c : Prop) [Decidable c] (p q : P3) :
    (if c then turn R p else turn R q) = turn R (if c then p else q) := by
  split <;> rfl

end vectors

/-! ## Cells and faces -/

/-- Cells: volumes stay, centroids turn along with the vertices. -/
theorem C218_cells (R : Rotation) (v : Nat → P3) (n : Nat) :
    cellVolume (fun i => turn R (v i)) n = cellVolume v n ∧
      cellCentroid (fun i => turn R (v i)) n = turn R (cellCentroid v n) := by
  constructor
  · unfold cellVolume
    split <;> simp only [sumTets_turn, tetVolume2_turn]
  · have h : ∀ n s, forN n (fun i (s : P3) => (⟨s.x + (turn R (v i)).x, s.y + (turn R (v i)).y,
        s.z + (turn R (v i)).z⟩ : P3)) (turn R s) =
        turn R (forN n (fun i (s : P3) => (⟨s.x + (v i).x, s.y + (v i).y, s.z + (v i).z⟩ : P3)) s) := by
      intro n s
      induction n with
      | zero => rfl
      | succ n ih => simp only [forN, ih, add_turn]
    have h0 := h n ⟨0, 0, 0⟩
    rw [zero_turn] at h0
    simp only [cellCentroid, h0, div_turn]

/-- Faces of a mesh that comes through DMPlex: distances, weights and projected areas stay, directions
turn. -/
theorem C218_plex_faces (R : Rotation) (x cen : Nat → P3) (fc n : P3) (area : ℝ) (verts : List Nat)
    (cells : ℤ × ℤ) :
    FaceGeom.faceAttr (fun i => turn R (x i)) (fun i => turn R (cen i)) (turn R fc) (turn R n) area verts
      cells = (FaceGeom.faceAttr x cen fc n area verts cells).map (turnAttr R) := by
  have hI : ∀ u v : P3, FaceGeom.plexIntercept (fun i => turn R (x i)) (turn R u) (turn R v) verts
      = (FaceGeom.plexIntercept x u v verts).map (turn R) := by
    intro u v
    unfold FaceGeom.plexIntercept
    split <;> simp only [intercept_turn, mid_turn, Option.map_some, Option.map_none]
  have hP : ∀ u : P3, FaceGeom.plexProjection (fun i => turn R (x i)) (turn R u) verts
      = (FaceGeom.plexProjection x u verts).map (turn R) := by
    intro u
    unfold FaceGeom.plexProjection
    split <;> simp only [project_turn, Option.map_some, Option.map_none]
  unfold FaceGeom.faceAttr
  simp only [ite_turn, hI, hP]
  split
  · rfl
  · split
    · rw [Option.map_map, Option.map_map]
      congr 1
      funext q
      simp only [Function.comp, innerAttr_turn, dot_turn, turnAttr]
    · rw [Option.map_map, Option.map_map]
      congr 1
      funext q
      simp only [Function.comp, join_turn, div_turn, dot_turn, turnAttr]

/-- Faces of a mesh the library reads itself. -/
theorem C218_own_faces (R : Rotation) (x : Nat → P3) (up dn : P3) (verts : List Nat) (ids : List ℤ) :
    FaceGeom.innerFace (fun i => turn R (x i)) (turn R up) (turn R dn) verts =
        (FaceGeom.innerFace x up dn verts).map (fun p => (p.1, turnAttr R p.2)) ∧
      FaceGeom.ugridArea (fun i => turn R (x i)) verts = FaceGeom.ugridArea x verts ∧
      FaceGeom.ugridCentroid (fun i => turn R (x i)) ids =
        turn R (FaceGeom.ugridCentroid x ids) := by
  refine ⟨?_, ?_, ?_⟩
  · unfold FaceGeom.innerFace
    split <;> simp only [join_turn, dot_turn, div_turn, triAttr_turn, mid_turn, innerAttr_turn,
      Option.map_some, Option.map_none, turnAttr]
  · unfold FaceGeom.ugridArea
    split <;> simp only [triArea_turn]
  · have key : ∀ (l : List ℤ) (s : P3),
        List.foldl (fun (s p : P3) => (⟨s.x + p.x, s.y + p.y, s.z + p.z⟩ : P3)) (turn R s)
          (l.map fun v => turn R (x v.toNat)) =
        turn R (List.foldl (fun (s p : P3) => (⟨s.x + p.x, s.y + p.y, s.z + p.z⟩ : P3)) s
            (l.map fun v => x v.toNat)) := by
      intro l
      induction l with
      | nil => intro s; rfl
      | cons a l ih => intro s; simp only [List.map_cons, List.foldl_cons, add_turn, ih]
    have z : (0.0 : ℝ) = 0 := by norm_num
    have h1 := key (ids.filter fun v => decide (0 ≤ v)) ⟨0, 0, 0⟩
    rw [zero_turn] at h1
    simp only [FaceGeom.ugridCentroid, z, h1, List.length_map, div_turn]

/-- The order of the vertices of a face and its cells stay, its normal turns. -/
theorem C218_orientation (R : Rotation) (x cen : Nat → P3) (fc : P3) (f : FaceOrient.Face) :
    FaceOrient.orient (fun i => turn R (x i)) (fun i => turn R (cen i)) (turn R fc) f =
      (FaceOrient.orient x cen fc f).map fun g => { g with normal := turn R g.normal } := by
  have ho : ∀ l, FaceOrient.order (fun i => turn R (x i)) l = FaceOrient.order x l := by
    intro l
    unfold FaceOrient.order
    split <;> simp only [unitNormalTriangle_turn, dot_turn]
  have hn : ∀ l, FaceOrient.listNormal (fun i => turn R (x i)) l =
      (FaceOrient.listNormal x l).map (turn R) := by
    intro l
    unfold FaceOrient.listNormal
    split <;> simp only [unitNormalTriangle_turn, normalQuad_turn, Option.map_some, Option.map_none]
  have hg : ∀ n, FaceOrient.neg (turn R n) = turn R (FaceOrient.neg n) := by
    intro n
    ext <;> simp only [FaceOrient.neg, turn] <;> ring
  simp only [FaceOrient.orient, ho, hn, join_turn]
  cases FaceOrient.listNormal x (FaceOrient.order x f.verts) with
  | none => rfl
  | some n =>
    simp only [Option.map_some, Option.bind_some, dot_turn, hg]
    by_cases h1 : f.cells.1 < 0
    · simp only [h1, if_true, Option.map_none]
    · simp only [h1, if_false]
      split_ifs <;> rfl

/-! ## The order of the cells around vertices -/

theorem upright_entries (R : Rotation) (h : R.Upright) :
    R.e1.z = 0 ∧ R.e2.z = 0 ∧ R.e3.x = 0 ∧ R.e3.y = 0 ∧ R.e3.z = 1 := by
  have h1 := rot_13 R
  have h2 := rot_23 R
  rw [h] at h1 h2 ⊢
  simp only [mul_zero, mul_one, zero_add] at h1 h2
  exact ⟨h1, h2, rfl, rfl, rfl⟩

section traverse

open TDy.Traverse

variable (R : Rotation) (m : TMesh) (h : R.Upright)

include h

theorem sameXY_turn : sameXY (turnT R m) = sameXY m := by
  funext v w
  obtain ⟨h1, h2, h3, h4, h5⟩ := upright_entries R h
  have e : ∀ p q : P3, 0.0 + ((turn R p).x - (turn R q).x) * ((turn R p).x - (turn R q).x)
      + ((turn R p).y - (turn R q).y) * ((turn R p).y - (turn R q).y) =
      0.0 + (p.x - q.x) * (p.x - q.x) + (p.y - q.y) * (p.y - q.y) := by
    intro p q
    have l1 := R.length1
    have l2 := R.length2
    have l3 := R.right
    simp only [turn, h3, h4]
    rw [h1] at l1 l3
    rw [h2] at l2 l3
    have z : (0.0 : ℝ) = 0 := by norm_num
    rw [z]
    linear_combination (p.x - q.x) * (p.x - q.x) * l1 + (p.y - q.y) * (p.y - q.y) * l2 +
      2 * (p.x - q.x) * (p.y - q.y) * l3
  simp only [sameXY, turnT, e]

theorem verticalVertex_turn : verticalVertex (turnT R m) = verticalVertex m := by
  funext c v
  simp only [verticalVertex, sameXY_turn R m h]; rfl

theorem isAbove_turn : isAbove (turnT R m) = isAbove m := by
  funext c v
  simp only [isAbove, verticalVertex_turn R m h]
  split
  · obtain ⟨h1, h2, h3, h4, h5⟩ := upright_entries R h
    simp only [turnT, turn, h1, h2, h5, mul_zero, zero_add, mul_one]
  · rfl

theorem hasBndEdge_turn : hasBndEdge (turnT R m) = hasBndEdge m := by
  funext v c
  simp only [hasBndEdge, verticalVertex_turn R m h]; rfl

theorem splitBnd_turn : splitBnd (turnT R m) = splitBnd m := by
  funext v l
  induction l with
  | nil => rfl
  | cons c cs ih => simp only [splitBnd, hasBndEdge_turn R m h, ih]

theorem aboveBelow_turn : aboveBelow (turnT R m) = aboveBelow m := by
  funext v
  simp only [aboveBelow, levelOrder, splitBnd_turn R m h, isAbove_turn R m h]; rfl

theorem findStep_turn : findStep (turnT R m) = findStep m := by
  funext v st
  have hs : saveOpposite (turnT R m) = saveOpposite m := by
    funext v l r
    simp only [saveOpposite, vertexSameXY, verticalVertex_turn R m h]; rfl
  have hf : findAtVertex (turnT R m) = findAtVertex m := by
    funext v st
    simp only [findAtVertex, aboveBelow_turn R m h, hs]
  simp only [findStep, hf]; rfl

theorem findAll_turn : findAll (turnT R m) = findAll m := by
  simp only [findAll, findStep_turn R m h]; rfl

theorem greedy_turn : greedy (turnT R m) = greedy m := by
  funext n
  induction n with
  | zero => rfl
  | succ n ih => funext c l; simp only [greedy, ih]; rfl

theorem circularOrder_turn : circularOrder (turnT R m) = circularOrder m := by
  funext l
  simp only [circularOrder, greedy_turn R m h]; rfl

theorem antiClock_turn (a b c : P3) :
    antiClock (turn R a) (turn R b) (turn R c) = antiClock a b c := by
  obtain ⟨h1, h2, h3, h4, h5⟩ := upright_entries R h
  have k : R.e1.x * R.e2.y - R.e1.y * R.e2.x = 1 := by
    have := congrArg P3.z R.third
    simp only [h5] at this
    exact this.symm
  have e : (cross ⟨(turn R b).x - (turn R a).x, (turn R b).y - (turn R a).y, 0.0⟩
      ⟨(turn R c).x - (turn R a).x, (turn R c).y - (turn R a).y, 0.0⟩).z =
      (cross ⟨b.x - a.x, b.y - a.y, 0.0⟩ ⟨c.x - a.x, c.y - a.y, 0.0⟩).z := by
    simp only [cross, turn, h3, h4]
    linear_combination ((b.x - a.x) * (c.y - a.y) - (b.y - a.y) * (c.x - a.x)) * k
  simp only [antiClock, e]

theorem antiClockwise_turn : antiClockwise (turnT R m) = antiClockwise m := by
  funext v l
  have e : ∀ a b, antiClock ((turnT R m).coord v) ((turnT R m).cellCen a)
      ((turnT R m).faceCen (sharedFace (turnT R m) v a b)) =
      antiClock (m.coord v) (m.cellCen a) (m.faceCen (sharedFace m v a b)) :=
    fun a b => antiClock_turn R h _ _ _
  simp only [antiClockwise, e]

theorem alignLevels_turn : alignLevels (turnT R m) = alignLevels m := by
  funext l k
  induction k with
  | nil => rfl
  | cons a as ih => simp only [alignLevels, ih]; rfl

theorem localCells_turn : localCells (turnT R m) = localCells m := by
  funext v l
  induction l with
  | nil => rfl
  | cons a as ih => simp only [localCells, ih]; rfl

theorem addTwo_turn : addTwo (turnT R m) = addTwo m := by
  funext v l t
  simp only [addTwo, upright, sameXY_turn R m h]; rfl

theorem addOne_turn : addOne (turnT R m) = addOne m := by
  funext v c t
  have e : ∀ i, antiClock ((turnT R m).coord v) ((turnT R m).cellCen c)
      ((turnT R m).faceCen (bndFace (turnT R m) v i)) =
      antiClock (m.coord v) (m.cellCen c) (m.faceCen (bndFace m v i)) :=
    fun i => antiClock_turn R h _ _ _
  simp only [addOne, e]; rfl

theorem convert_turn : convert (turnT R m) = convert m := by
  funext v l
  simp only [convert, addTwo_turn R m h, addOne_turn R m h, localCells_turn R m h]; rfl

theorem addFlat_turn : addFlat (turnT R m) = addFlat m := by
  funext v l
  induction l with
  | nil => rfl
  | cons c cs ih => funext ii u t; simp only [addFlat, ih]; rfl

theorem upToDown_turn : upToDown (turnT R m) = upToDown m := by
  funext v A B
  have hr : rearrange (turnT R m) = rearrange m := by
    funext v A B
    simp only [rearrange, circularOrder_turn R m h, antiClockwise_turn R m h, alignLevels_turn R m h]
  have ha : addUpDown (turnT R m) = addUpDown m := by
    funext v l t u
    simp only [addUpDown, addFlat_turn R m h]; rfl
  simp only [upToDown, hr, convert_turn R m h, ha]; rfl

theorem upwindAll_turn (st : Rows) (n : Nat) : upwindAll (turnT R m) st n = upwindAll m st n := by
  have hu : upwindFaces (turnT R m) = upwindFaces m := by
    funext v st
    simp only [upwindFaces, upToDown_turn R m h]; rfl
  induction n with
  | zero => rfl
  | succ n ih => simp only [upwindAll, ih, hu]; rfl

end traverse

/-- **C218, partial.**  The connections of cells that the MPFA-O method finds around the vertices stay under
rotations about the vertical axis.  Missing: other rotations, for which they are lost. -/
theorem C218_traversal_partial (R : Rotation) (h : R.Upright) (m : Traverse.TMesh) :
    Traverse.setupTraversal (turnT R m) = Traverse.setupTraversal m := by
  simp only [Traverse.setupTraversal, findAll_turn R m h, upwindAll_turn R m h]; rfl

example : aboutFace.Upright := rfl

/-! ## The coefficients -/

theorem nuVector_turn (R : Rotation) (fc : Nat → P3) (cen : P3) (f : Fin 3 → Nat) (k : Fin 3) :
    Mpfao.nuVector (fun i => turn R (fc i)) (turn R cen) f k = turn R (Mpfao.nuVector fc cen f k) := by
  unfold Mpfao.nuVector
  split <;> simp only [normalTriangle_turn]

theorem subcellT_turn (R : Rotation) (fc : Nat → P3) (cen : P3) (f : Fin 3 → Nat) :
    Mpfao.subcellT (fun i => turn R (fc i)) (turn R cen) f = Mpfao.subcellT fc cen f := by
  simp only [Mpfao.subcellT, tetVolume_turn]

theorem orientFaces_turn (R : Rotation) (fc : Nat → P3) (cen v : P3) (f : Fin 3 → Nat) :
    Mpfao.orientFaces (fun i => turn R (fc i)) (turn R cen) (turn R v) f =
      Mpfao.orientFaces fc cen v f := by
  simp only [Mpfao.orientFaces, join_turn, cross_turn, dot_turn]

theorem lengthOf_turn (R : Rotation) (p q : P3) :
    Mpfao.lengthOf (turn R p) (turn R q) = Mpfao.lengthOf p q := by
  have h := dot_turn R (join q p) (join q p)
  rw [← join_turn] at h
  simp only [dot_e, join] at h
  have z : (0.0 : ℝ) = 0 := by norm_num
  unfold Mpfao.lengthOf
  congr 1
  rw [z]
  linear_combination h

/-- `K v` as a vector. -/
def applied (K : Fin 3 → Fin 3 → ℝ) (v : P3) : P3 :=
  ⟨K 0 0 * v.x + K 0 1 * v.y + K 0 2 * v.z, K 1 0 * v.x + K 1 1 * v.y + K 1 2 * v.z,
   K 2 0 * v.x + K 2 1 * v.y + K 2 2 * v.z⟩

theorem applied_turn (R : Rotation) (K : Fin 3 → Fin 3 → ℝ) (v : P3) :
    applied (turnK R K) (turn R v) = turn R (applied K v) := by
  have h1 : R.e1.x * (turn R v).x + R.e1.y * (turn R v).y + R.e1.z * (turn R v).z = v.x := by
    simp only [turn]
    linear_combination v.x * R.length1 + v.y * R.right + v.z * rot_13 R
  have h2 : R.e2.x * (turn R v).x + R.e2.y * (turn R v).y + R.e2.z * (turn R v).z = v.y := by
    simp only [turn]
    linear_combination v.y * R.length2 + v.x * R.right + v.z * rot_23 R
  have h3 : R.e3.x * (turn R v).x + R.e3.y * (turn R v).y + R.e3.z * (turn R v).z = v.z := by
    simp only [turn]
    linear_combination v.z * rot_33 R + v.x * rot_13 R + v.y * rot_23 R
  have ht : ∀ p : P3, turn R p = ⟨p.x * R.e1.x + p.y * R.e2.x + p.z * R.e3.x,
      p.x * R.e1.y + p.y * R.e2.y + p.z * R.e3.y, p.x * R.e1.z + p.y * R.e2.z + p.z * R.e3.z⟩ :=
    fun _ => rfl
  rw [ht (applied K v)]
  generalize turn R v = w at *
  obtain ⟨vx, vy, vz⟩ := v
  simp only at h1 h2 h3
  subst h1 h2 h3
  ext <;> simp only [applied, turnK, Rotation.entry] <;> ring

theorem entryOfG_turn (R : Rotation) (area : ℝ) (n : P3) (K : Fin 3 → Fin 3 → ℝ) (v : P3) (T : ℝ) :
    Mpfao.entryOfG area (turn R n) (turnK R K) (turn R v) T = Mpfao.entryOfG area n K v T := by
  have z : (0.0 : ℝ) = 0 := by norm_num
  have h : ∀ n K v, Mpfao.entryOfG area n K v T = dot n (applied K v) * (1.0 / T * area) := by
    intro n K v
    simp only [Mpfao.entryOfG, dot_e, applied, z, zero_add]
  rw [h, h, applied_turn, dot_turn]

/-- The matrices of the subcells stay when the tensors turn with the mesh. -/
theorem C218_matrices (R : Rotation) (K : Fin 3 → Fin 3 → ℝ) (area : Nat → ℝ) (normal fc : Nat → P3)
    (cen : P3) (f : Fin 3 → Nat) :
    Mpfao.gMatrix (turnK R K) area (fun i => turn R (normal i)) (fun i => turn R (fc i)) (turn R cen) f =
      Mpfao.gMatrix K area normal fc cen f := by
  funext i j
  simp only [Mpfao.gMatrix, nuVector_turn, subcellT_turn, entryOfG_turn]

end TDy.Geo.Props
