import Verif.Spec.Shift
import Verif.Props.MpfaoVelocityWitness
import Mathlib.Tactic.FieldSimp
import Mathlib.Tactic.LinearCombination
import Mathlib.Tactic.NormNum

/-!
# C213: the place of the mesh does not matter
-/

namespace TDy.Geo.Props

open TDy.Geo.Spec

/-! ## The helpers -/

theorem join_shift (d p q : P3) : join (shift d p) (shift d q) = join p q := by
  simp [join, shift]

theorem triangleArea_shift (d p q r : P3) :
    triangleArea (shift d p) (shift d q) (shift d r) = triangleArea p q r := by
  simp only [triangleArea, join_shift]

theorem mean4_shift (d p q r s : P3) :
    mean4 (shift d p) (shift d q) (shift d r) (shift d s) = shift d (mean4 p q r s) := by
  ext <;> simp only [mean4, shift] <;> ring

theorem quadArea_shift (d p q r s : P3) :
    quadArea (shift d p) (shift d q) (shift d r) (shift d s) = quadArea p q r s := by
  simp only [quadArea, mean4_shift, triangleArea_shift]

theorem normalTriangle_shift (d p q r : P3) :
    normalTriangle (shift d p) (shift d q) (shift d r) = normalTriangle p q r := by
  simp only [normalTriangle, join_shift]

theorem unitNormalTriangle_shift (d p q r : P3) :
    unitNormalTriangle (shift d p) (shift d q) (shift d r) = unitNormalTriangle p q r := by
  simp only [unitNormalTriangle, normalTriangle_shift]

theorem normalQuad_shift (d p q r s : P3) :
    normalQuad (shift d p) (shift d q) (shift d r) (shift d s) = normalQuad p q r s := by
  simp only [normalQuad, mean4_shift, unitNormalTriangle_shift]

theorem tetVolume_shift (d p q r s : P3) :
    tetVolume (shift d p) (shift d q) (shift d r) (shift d s) = tetVolume p q r s := by
  simp only [tetVolume, join_shift]

theorem tetVolume2_shift (d p q r s : P3) :
    tetVolume2 (shift d p) (shift d q) (shift d r) (shift d s) = tetVolume2 p q r s := by
  simp only [tetVolume2, join_shift]

theorem sumTets_shift (d : P3) (v : Nat → P3) (l : List (Nat × Nat × Nat × Nat)) :
    sumTets (fun i => shift d (v i)) l = sumTets v l := by
  simp only [sumTets, tetVolume2_shift]

theorem intercept_shift (d p q r u v : P3) :
    planeIntercept (planeOf (shift d p) (shift d q) (shift d r)) (shift d u) (shift d v) =
      shift d (planeIntercept (planeOf p q r) u v) := by
  have e : (planeOf (shift d p) (shift d q) (shift d r)).a = (planeOf p q r).a ∧
      (planeOf (shift d p) (shift d q) (shift d r)).b = (planeOf p q r).b ∧
      (planeOf (shift d p) (shift d q) (shift d r)).c = (planeOf p q r).c ∧
      (planeOf (shift d p) (shift d q) (shift d r)).d = (planeOf p q r).d -
        ((planeOf p q r).a * d.x + (planeOf p q r).b * d.y + (planeOf p q r).c * d.z) := by
    refine ⟨?_, ?_, ?_, ?_⟩ <;> simp only [planeOf, shift] <;> ring
  obtain ⟨ea, eb, ec, ed⟩ := e
  generalize planeOf (shift d p) (shift d q) (shift d r) = P' at *
  generalize planeOf p q r = P at *
  have n : P'.a * (shift d u).x + P'.b * (shift d u).y + P'.c * (shift d u).z + P'.d =
      P.a * u.x + P.b * u.y + P.c * u.z + P.d := by
    rw [ea, eb, ec, ed]; simp only [shift]; ring
  have m : P'.a * ((shift d u).x - (shift d v).x) + P'.b * ((shift d u).y - (shift d v).y) +
      P'.c * ((shift d u).z - (shift d v).z) =
      P.a * (u.x - v.x) + P.b * (u.y - v.y) + P.c * (u.z - v.z) := by
    rw [ea, eb, ec]; simp only [shift]; ring
  simp only [planeIntercept, n, m]
  ext <;> simp only [shift] <;> ring

theorem project_shift (d p q r u : P3) :
    projectOnPlane (planeOf (shift d p) (shift d q) (shift d r)) (shift d u) =
      shift d (projectOnPlane (planeOf p q r) u) := by
  have e : (planeOf (shift d p) (shift d q) (shift d r)).a = (planeOf p q r).a ∧
      (planeOf (shift d p) (shift d q) (shift d r)).b = (planeOf p q r).b ∧
      (planeOf (shift d p) (shift d q) (shift d r)).c = (planeOf p q r).c ∧
      (planeOf (shift d p) (shift d q) (shift d r)).d = (planeOf p q r).d -
        ((planeOf p q r).a * d.x + (planeOf p q r).b * d.y + (planeOf p q r).c * d.z) := by
    refine ⟨?_, ?_, ?_, ?_⟩ <;> simp only [planeOf, shift] <;> ring
  obtain ⟨ea, eb, ec, ed⟩ := e
  generalize planeOf (shift d p) (shift d q) (shift d r) = P' at *
  generalize planeOf p q r = P at *
  have n : P'.a * (shift d u).x + P'.b * (shift d u).y + P'.c * (shift d u).z + P'.d =
      P.a * u.x + P.b * u.y + P.c * u.z + P.d := by
    rw [ea, eb, ec, ed]; simp only [shift]; ring
  unfold projectOnPlane
  rw [n, ea, eb, ec]
  ext <;> simp only [shift] <;> ring

theorem mid_shift (d p q : P3) :
    FaceGeom.mid (shift d p) (shift d q) = shift d (FaceGeom.mid p q) := by
  have e : (2.0 : ℝ) = 2 := by norm_num
  ext <;> simp only [FaceGeom.mid, shift, e] <;> ring

theorem innerAttr_shift (d u v q : P3) :
    FaceGeom.innerAttr (shift d u) (shift d v) (shift d q) = FaceGeom.innerAttr u v q := by
  simp only [FaceGeom.innerAttr, join_shift]

theorem triArea_shift (d p q r : P3) :
    FaceGeom.triArea (shift d p) (shift d q) (shift d r) = FaceGeom.triArea p q r := by
  simp only [FaceGeom.triArea, join_shift]

theorem triAttr_shift (d p q r u v n : P3) :
    FaceGeom.triAttr (shift d p) (shift d q) (shift d r) (shift d u) (shift d v) n =
      ((FaceGeom.triAttr p q r u v n).1, (FaceGeom.triAttr p q r u v n).2.1,
        shift d (FaceGeom.triAttr p q r u v n).2.2) := by
  simp only [FaceGeom.triAttr, join_shift, intercept_shift]

theorem ite_shift (d : P3) (c : Prop) [Decidable c] (p q : P3) :
    (if c then shift d p else shift d q) = shift d (if c then p else q) := by
  split <;> rfl

/-! ## Cells and faces -/

theorem centroid_sum (d : P3) (v : Nat → P3) (n : Nat) (s : P3) (k : ℝ) :
    forN n (fun i (s : P3) => (⟨s.x + (shift d (v i)).x, s.y + (shift d (v i)).y,
      s.z + (shift d (v i)).z⟩ : P3)) ⟨s.x + k * d.x, s.y + k * d.y, s.z + k * d.z⟩ =
    (let t := forN n (fun i (s : P3) => (⟨s.x + (v i).x, s.y + (v i).y, s.z + (v i).z⟩ : P3)) s
     ⟨t.x + (k + n) * d.x, t.y + (k + n) * d.y, t.z + (k + n) * d.z⟩) := by
  induction n with
  | zero => simp [forN]
  | succ n ih =>
    simp only [forN] at ih ⊢
    rw [ih]
    ext <;> simp only [shift] <;> push_cast <;> ring

/-- Cells: volumes stay, centroids move along with the vertices. -/
theorem C213_cells (d : P3) (v : Nat → P3) (n : Nat) :
    cellVolume (fun i => shift d (v i)) n = cellVolume v n ∧
      (n ≠ 0 → cellCentroid (fun i => shift d (v i)) n = shift d (cellCentroid v n)) := by
  constructor
  · unfold cellVolume
    split <;> simp only [sumTets_shift, tetVolume2_shift]
  · intro hn
    have h0 : (n : ℝ) ≠ 0 := Nat.cast_ne_zero.mpr hn
    have h := centroid_sum d v n ⟨0, 0, 0⟩ 0
    simp only [zero_mul, zero_add, add_zero] at h
    simp only [cellCentroid, h]
    ext <;> simp only [shift] <;> field_simp

/-- Faces of meshes that PETSc reads: distances, direction, weight and projected area stay. -/
theorem C213_plex_faces (d : P3) (x cen : Nat → P3) (fc n : P3) (area : ℝ) (verts : List Nat)
    (cells : ℤ × ℤ) :
    FaceGeom.faceAttr (fun i => shift d (x i)) (fun i => shift d (cen i)) (shift d fc) n area verts
      cells = FaceGeom.faceAttr x cen fc n area verts cells := by
  have hI : ∀ u v : P3, FaceGeom.plexIntercept (fun i => shift d (x i)) (shift d u) (shift d v) verts
      = (FaceGeom.plexIntercept x u v verts).map (shift d) := by
    intro u v
    unfold FaceGeom.plexIntercept
    split <;> simp only [intercept_shift, mid_shift, Option.map_some, Option.map_none]
  have hP : ∀ u : P3, FaceGeom.plexProjection (fun i => shift d (x i)) (shift d u) verts
      = (FaceGeom.plexProjection x u verts).map (shift d) := by
    intro u
    unfold FaceGeom.plexProjection
    split <;> simp only [project_shift, Option.map_some, Option.map_none]
  unfold FaceGeom.faceAttr
  simp only [ite_shift, hI, hP, Option.map_map, Function.comp_def, innerAttr_shift, join_shift]

/-- Faces of meshes in the format of the library: areas, distances, directions, weights and projected
areas stay, centroids move along. -/
theorem C213_own_faces (d : P3) (x : Nat → P3) (up dn : P3) (verts : List Nat) (ids : List ℤ)
    (h : ∃ i ∈ ids, 0 ≤ i) :
    FaceGeom.innerFace (fun i => shift d (x i)) (shift d up) (shift d dn) verts =
        FaceGeom.innerFace x up dn verts ∧
      FaceGeom.ugridArea (fun i => shift d (x i)) verts = FaceGeom.ugridArea x verts ∧
      FaceGeom.ugridCentroid (fun i => shift d (x i)) ids =
        shift d (FaceGeom.ugridCentroid x ids) := by
  refine ⟨?_, ?_, ?_⟩
  · unfold FaceGeom.innerFace
    split <;> simp only [join_shift, triAttr_shift, mid_shift, innerAttr_shift]
  · unfold FaceGeom.ugridArea
    split <;> simp only [triArea_shift]
  · have key : ∀ (l : List ℤ) (s : P3) (k : ℝ),
        List.foldl (fun (s p : P3) => (⟨s.x + p.x, s.y + p.y, s.z + p.z⟩ : P3))
          ⟨s.x + k * d.x, s.y + k * d.y, s.z + k * d.z⟩ (l.map fun v => shift d (x v.toNat)) =
        (let t := List.foldl (fun (s p : P3) => (⟨s.x + p.x, s.y + p.y, s.z + p.z⟩ : P3)) s
            (l.map fun v => x v.toNat)
         ⟨t.x + (k + l.length) * d.x, t.y + (k + l.length) * d.y, t.z + (k + l.length) * d.z⟩) := by
      intro l
      induction l with
      | nil => intro s k; simp
      | cons a l ih =>
        intro s k
        have e : (⟨s.x + k * d.x + (shift d (x a.toNat)).x, s.y + k * d.y + (shift d (x a.toNat)).y,
            s.z + k * d.z + (shift d (x a.toNat)).z⟩ : P3) =
            ⟨(s.x + (x a.toNat).x) + (k + 1) * d.x, (s.y + (x a.toNat).y) + (k + 1) * d.y,
              (s.z + (x a.toNat).z) + (k + 1) * d.z⟩ := by
          ext <;> simp only [shift] <;> ring
        simp only [List.map_cons, List.foldl_cons, e]
        rw [ih ⟨s.x + (x a.toNat).x, s.y + (x a.toNat).y, s.z + (x a.toNat).z⟩ (k + 1)]
        ext <;> simp only [List.length_cons] <;> push_cast <;> ring
    have hl : ((ids.filter fun v => decide (0 ≤ v)).length : ℝ) ≠ 0 := by
      obtain ⟨i, hi, h0⟩ := h
      have : i ∈ ids.filter fun v => decide (0 ≤ v) := List.mem_filter.mpr ⟨hi, by simpa using h0⟩
      exact Nat.cast_ne_zero.mpr (List.length_pos_of_mem this).ne'
    have h1 := key (ids.filter fun v => decide (0 ≤ v)) ⟨0.0, 0.0, 0.0⟩ 0
    have e0 : (⟨0.0 + 0 * d.x, 0.0 + 0 * d.y, 0.0 + 0 * d.z⟩ : P3) = ⟨0.0, 0.0, 0.0⟩ := by
      ext <;> simp
    rw [e0] at h1
    simp only [FaceGeom.ugridCentroid, h1, List.length_map]
    ext <;> simp only [shift, zero_add] <;> field_simp

/-- The order of the vertices of a face, its cells and its normal stay. -/
theorem C213_orientation (d : P3) (x cen : Nat → P3) (fc : P3) (f : FaceOrient.Face) :
    FaceOrient.orient (fun i => shift d (x i)) (fun i => shift d (cen i)) (shift d fc) f =
      FaceOrient.orient x cen fc f := by
  have ho : ∀ l, FaceOrient.order (fun i => shift d (x i)) l = FaceOrient.order x l := by
    intro l
    unfold FaceOrient.order
    split <;> simp only [unitNormalTriangle_shift]
  have hn : ∀ l, FaceOrient.listNormal (fun i => shift d (x i)) l = FaceOrient.listNormal x l := by
    intro l
    unfold FaceOrient.listNormal
    split <;> simp only [unitNormalTriangle_shift, normalQuad_shift]
  simp only [FaceOrient.orient, ho, hn, join_shift]

/-! ## The order of the cells around vertices -/

section traverse

open TDy.Traverse

variable (d : P3) (m : TMesh)

theorem sameXY_shift : sameXY (shiftT d m) = sameXY m := by
  funext v w
  simp only [sameXY, shiftT, shift, add_sub_add_right_eq_sub]

theorem verticalVertex_shift : verticalVertex (shiftT d m) = verticalVertex m := by
  funext c v
  simp only [verticalVertex, sameXY_shift]; rfl

theorem isAbove_shift : isAbove (shiftT d m) = isAbove m := by
  funext c v
  simp only [isAbove, verticalVertex_shift]
  split
  · simp only [shiftT, shift, gt_iff_lt, add_lt_add_iff_right]
  · rfl

theorem hasBndEdge_shift : hasBndEdge (shiftT d m) = hasBndEdge m := by
  funext v c
  simp only [hasBndEdge, verticalVertex_shift]; rfl

theorem splitBnd_shift : splitBnd (shiftT d m) = splitBnd m := by
  funext v l
  induction l with
  | nil => rfl
  | cons c cs ih => simp only [splitBnd, hasBndEdge_shift, ih]

theorem aboveBelow_shift : aboveBelow (shiftT d m) = aboveBelow m := by
  funext v
  simp only [aboveBelow, levelOrder, splitBnd_shift, isAbove_shift]; rfl

theorem findStep_shift : findStep (shiftT d m) = findStep m := by
  funext v st
  have hs : saveOpposite (shiftT d m) = saveOpposite m := by
    funext v l r
    simp only [saveOpposite, vertexSameXY, verticalVertex_shift]; rfl
  have hf : findAtVertex (shiftT d m) = findAtVertex m := by
    funext v st
    simp only [findAtVertex, aboveBelow_shift, hs]
  simp only [findStep, hf]; rfl

theorem findAll_shift : findAll (shiftT d m) = findAll m := by
  simp only [findAll, findStep_shift]; rfl

theorem greedy_shift : greedy (shiftT d m) = greedy m := by
  funext n
  induction n with
  | zero => rfl
  | succ n ih => funext c l; simp only [greedy, ih]; rfl

theorem circularOrder_shift : circularOrder (shiftT d m) = circularOrder m := by
  funext l
  simp only [circularOrder, greedy_shift]; rfl

theorem antiClock_shift (a b c : P3) :
    antiClock (shift d a) (shift d b) (shift d c) = antiClock a b c := by
  simp only [antiClock, shift, add_sub_add_right_eq_sub]

theorem antiClockwise_shift : antiClockwise (shiftT d m) = antiClockwise m := by
  funext v l
  have e : ∀ a b, antiClock ((shiftT d m).coord v) ((shiftT d m).cellCen a)
      ((shiftT d m).faceCen (sharedFace (shiftT d m) v a b)) =
      antiClock (m.coord v) (m.cellCen a) (m.faceCen (sharedFace m v a b)) :=
    fun a b => antiClock_shift d _ _ _
  simp only [antiClockwise, e]

theorem alignLevels_shift : alignLevels (shiftT d m) = alignLevels m := by
  funext l k
  induction k with
  | nil => rfl
  | cons a as ih => simp only [alignLevels, ih]; rfl

theorem localCells_shift : localCells (shiftT d m) = localCells m := by
  funext v l
  induction l with
  | nil => rfl
  | cons a as ih => simp only [localCells, ih]; rfl

theorem addTwo_shift : addTwo (shiftT d m) = addTwo m := by
  funext v l t
  simp only [addTwo, upright, sameXY_shift]; rfl

theorem addOne_shift : addOne (shiftT d m) = addOne m := by
  funext v c t
  have e : ∀ i, antiClock ((shiftT d m).coord v) ((shiftT d m).cellCen c)
      ((shiftT d m).faceCen (bndFace (shiftT d m) v i)) =
      antiClock (m.coord v) (m.cellCen c) (m.faceCen (bndFace m v i)) :=
    fun i => antiClock_shift d _ _ _
  simp only [addOne, e]; rfl

theorem convert_shift : convert (shiftT d m) = convert m := by
  funext v l
  simp only [convert, addTwo_shift, addOne_shift, localCells_shift]; rfl

theorem addFlat_shift : addFlat (shiftT d m) = addFlat m := by
  funext v l
  induction l with
  | nil => rfl
  | cons c cs ih => funext ii u t; simp only [addFlat, ih]; rfl

theorem upToDown_shift : upToDown (shiftT d m) = upToDown m := by
  funext v A B
  have hr : rearrange (shiftT d m) = rearrange m := by
    funext v A B
    simp only [rearrange, circularOrder_shift, antiClockwise_shift, alignLevels_shift]
  have ha : addUpDown (shiftT d m) = addUpDown m := by
    funext v l t u
    simp only [addUpDown, addFlat_shift]; rfl
  simp only [upToDown, hr, convert_shift, ha]; rfl

theorem upwindAll_shift (st : Rows) (n : Nat) : upwindAll (shiftT d m) st n = upwindAll m st n := by
  have hu : upwindFaces (shiftT d m) = upwindFaces m := by
    funext v st
    simp only [upwindFaces, upToDown_shift]; rfl
  induction n with
  | zero => rfl
  | succ n ih => simp only [upwindAll, ih, hu]; rfl

/-- The connections of cells that the MPFA-O method finds around the vertices stay. -/
theorem C213_traversal : setupTraversal (shiftT d m) = setupTraversal m := by
  simp only [setupTraversal, findAll_shift, upwindAll_shift]; rfl

end traverse

/-! ## The coefficients -/

theorem nuVector_shift (d : P3) (fc : Nat → P3) (cen : P3) (f : Fin 3 → Nat) (k : Fin 3) :
    Mpfao.nuVector (fun i => shift d (fc i)) (shift d cen) f k = Mpfao.nuVector fc cen f k := by
  unfold Mpfao.nuVector
  split <;> simp only [normalTriangle_shift]

theorem subcellT_shift (d : P3) (fc : Nat → P3) (cen : P3) (f : Fin 3 → Nat) :
    Mpfao.subcellT (fun i => shift d (fc i)) (shift d cen) f = Mpfao.subcellT fc cen f := by
  simp only [Mpfao.subcellT, tetVolume_shift]

theorem orientFaces_shift (d : P3) (fc : Nat → P3) (cen v : P3) (f : Fin 3 → Nat) :
    Mpfao.orientFaces (fun i => shift d (fc i)) (shift d cen) (shift d v) f =
      Mpfao.orientFaces fc cen v f := by
  simp only [Mpfao.orientFaces, join_shift]

theorem lengthOf_shift (d p q : P3) :
    Mpfao.lengthOf (shift d p) (shift d q) = Mpfao.lengthOf p q := by
  simp only [Mpfao.lengthOf, shift, add_sub_add_right_eq_sub]

section grav

variable (d : P3) (m : Mpfao.GravCtx)

theorem sidePoint_shift (f : Nat) (id : ℤ) :
    Mpfao.sidePoint (shiftG d m) f id = shift d (Mpfao.sidePoint m f id) :=
  ite_shift d _ _ _

theorem upDown_shift : Mpfao.upDown (shiftG d m) = Mpfao.upDown m := by
  funext f
  simp only [Mpfao.upDown, unitJoin, sidePoint_shift, join_shift]; rfl

theorem wtUp_shift : Mpfao.wtUp (shiftG d m) = Mpfao.wtUp m := by
  have h : Mpfao.sideDist (shiftG d m) = Mpfao.sideDist m := by
    funext f id
    simp only [Mpfao.sideDist, shiftG, join_shift]
  funext f
  simp only [Mpfao.wtUp, h]; rfl

theorem gravDis_shift : Mpfao.gravDis (shiftG d m) = Mpfao.gravDis m := by
  funext f a
  have h1 : Mpfao.permTPF (shiftG d m) = Mpfao.permTPF m := by
    funext f
    simp only [Mpfao.permTPF, upDown_shift, wtUp_shift]; rfl
  have h2 : Mpfao.permMPFAO (shiftG d m) = Mpfao.permMPFAO m := by
    funext f
    simp only [Mpfao.permMPFAO, Mpfao.faceTensor, upDown_shift]
    have : Mpfao.faceInv (shiftG d m) f = Mpfao.faceInv m f := by
      funext n
      simp only [Mpfao.faceInv, wtUp_shift]; rfl
    rw [this]; rfl
  simp only [Mpfao.gravDis, h1, h2, upDown_shift]; rfl

theorem tpfPoint_shift (c f : Nat) :
    Mpfao.tpfPoint (shiftG d m) c f = shift d (Mpfao.tpfPoint m c f) :=
  ite_shift d _ _ _

theorem tpfDist_shift : Mpfao.tpfDist (shiftG d m) = Mpfao.tpfDist m := by
  funext c f
  have e : Mpfao.lengthOf (Mpfao.tpfPoint (shiftG d m) c f) ((shiftG d m).cellCen c) =
      Mpfao.lengthOf (Mpfao.tpfPoint m c f) (m.cellCen c) := by
    rw [tpfPoint_shift]; exact lengthOf_shift d _ _
  simp only [Mpfao.tpfDist, e]; rfl

theorem tpfDir_shift : Mpfao.tpfDir (shiftG d m) = Mpfao.tpfDir m := by
  funext c f
  have e : join (Mpfao.tpfPoint (shiftG d m) c f) ((shiftG d m).cellCen c) =
      join (Mpfao.tpfPoint m c f) (m.cellCen c) := by
    rw [tpfPoint_shift]; exact join_shift d _ _
  simp only [Mpfao.tpfDir, unitJoin, e]

/-- The matrices of the subcells, with the two-point option too and for heat, and the gravity
coefficients stay. -/
theorem C213_coefficients (K : Fin 3 → Fin 3 → ℝ) (Kappa0 area : Nat → ℝ) (normal fc : Nat → P3)
    (cen : P3) (f : Fin 3 → Nat) (c : Nat) (face : Nat → Nat) (T : ℝ) (g : Nat → ℝ) :
    Mpfao.gMatrix K area normal (fun i => shift d (fc i)) (shift d cen) f =
        Mpfao.gMatrix K area normal fc cen f ∧
      Mpfao.tpfG (shiftG d m) area c face = Mpfao.tpfG m area c face ∧
      Mpfao.tpfTempG (shiftG d m) Kappa0 area c face T = Mpfao.tpfTempG m Kappa0 area c face T ∧
      Mpfao.gravity (shiftG d m) g = Mpfao.gravity m g := by
  refine ⟨?_, ?_, ?_, ?_⟩
  · funext i j
    simp only [Mpfao.gMatrix, nuVector_shift, subcellT_shift]
  · funext i j
    simp only [Mpfao.tpfG, Mpfao.tpfEntry, Mpfao.tpfPerm, tpfDist_shift, tpfDir_shift]; rfl
  · funext i j
    simp only [Mpfao.tpfTempG, Mpfao.nuStar, tpfDist_shift, tpfDir_shift]; rfl
  · have h : Mpfao.gravStep (shiftG d m) = Mpfao.gravStep m := by
      funext v i g
      simp only [Mpfao.gravStep, gravDis_shift]; rfl
    simp only [Mpfao.gravity, h]; rfl

end grav

/-! ## The tables of the subcells -/

section tables

variable (d : P3) (m : Subcells.Mesh)

theorem order_shift : Subcells.order (shiftS d m) = Subcells.order m := by
  funext c s
  exact orientFaces_shift d m.fCen (m.cellCen c) (m.coord (m.cellVertex c s)) _

theorem movedRes_bind {r r' : Res Subcells.Tables} {f f' : Subcells.Tables → Res Subcells.Tables}
    (h : MovedRes d r r') (hf : ∀ t t', Moved d t t' → MovedRes d (f t) (f' t')) :
    MovedRes d (r.bind f) (r'.bind f') := by
  cases r <;> cases r' <;> first | exact hf _ _ h | exact h | exact absurd h id

theorem forN_rel {σ τ : Type} (R : σ → τ → Prop) (n : Nat) (f : Nat → σ → σ) (g : Nat → τ → τ)
    (hf : ∀ i a b, R a b → R (f i a) (g i b)) (a : σ) (b : τ) (h : R a b) :
    R (forN n f a) (forN n g b) := by
  induction n with
  | zero => exact h
  | succ n ih => exact hf n _ _ ih

theorem subfaceCen_shift (v f : Nat) (n : Nat × Nat) :
    Subcells.subfaceCen (shiftS d m) v f n = shift d (Subcells.subfaceCen m v f n) := by
  have e : (2.0 : ℝ) = 2 := by norm_num
  have e4 : (4.0 : ℝ) = 4 := by norm_num
  ext <;> simp only [Subcells.subfaceCen, Subcells.mean, shiftS, shift, e, e4] <;> ring

theorem writeFace_shift (c s i : Nat) (t t' : Subcells.Tables) (h : Moved d t t') :
    MovedRes d (Subcells.writeFace m c s i t) (Subcells.writeFace (shiftS d m) c s i t') := by
  have hn : Subcells.neighbours (shiftS d m) = Subcells.neighbours m := rfl
  simp only [Subcells.writeFace, order_shift, hn, subfaceCen_shift]
  have hv : (shiftS d m).cellVertex = m.cellVertex := rfl
  rw [hv]
  cases Subcells.neighbours m (Subcells.nth (Subcells.order m c s) i) (m.cellVertex c s) with
  | none => trivial
  | some n =>
    refine ⟨h.faceIds, h.vertexIds, ?_, ?_, h.T, ?_⟩
    · change wr t'.faceArea _ _ = wr t.faceArea _ _
      rw [h.faceArea]; rfl
    · have e : Mpfao.nuVector (shiftS d m).fCen ((shiftS d m).cellCen c) (Subcells.order m c s)
          (Subcells.fin i) = _ := nuVector_shift d m.fCen (m.cellCen c) _ _
      change wr t'.nu _ _ = wr t.nu _ _
      rw [h.nu, e]; rfl
    · intro k
      change wr t'.contin _ _ k = shift d (wr t.contin _ _ k) ∨
        (wr t.contin _ _ k = _ ∧ wr t'.contin _ _ k = _)
      have en : (shiftS d m).nSub = m.nSub := rfl
      rw [en]
      by_cases hk : k = 3 * (c * m.nSub + s) + i
      · subst hk
        left
        rw [wr_same, wr_same]
      · rw [wr_other _ _ hk, wr_other _ _ hk]
        exact h.points k

theorem setupSubcell_shift (c s : Nat) (t t' : Subcells.Tables) (h : Moved d t t') :
    MovedRes d (Subcells.setupSubcell m c s t) (Subcells.setupSubcell (shiftS d m) c s t') := by
  have hs : Subcells.sharedFaces (shiftS d m) = Subcells.sharedFaces m := rfl
  have hv : (shiftS d m).cellVertex = m.cellVertex := rfl
  have en : (shiftS d m).nSub = m.nSub := rfl
  simp only [Subcells.setupSubcell, hs, hv]
  by_cases hc : (Subcells.sharedFaces m c (m.cellVertex c s)).num ≠ 3
  · rw [if_pos hc, if_pos hc]; trivial
  · rw [if_neg hc, if_neg hc]
    refine forN_rel (MovedRes d) 3 _ _
      (fun i a b hab => movedRes_bind d hab fun t t' ht => writeFace_shift d m c s i t t' ht) _ _ ?_
    have h1 := forN_rel (Moved d) 3 (fun k t => Subcells.writeIds m c s k t)
      (fun k t => Subcells.writeIds (shiftS d m) c s k t)
      (fun k a b hab => ⟨by
          change wr b.faceIds _ _ = wr a.faceIds _ _
          rw [order_shift, hab.faceIds, en], by
          change wr b.vertexIds _ _ = wr a.vertexIds _ _
          rw [hab.vertexIds, hv, en], hab.faceArea, hab.nu, hab.T, hab.points⟩) t t' h
    refine ⟨h1.faceIds, h1.vertexIds, h1.faceArea, h1.nu, ?_, h1.points⟩
    have e : Mpfao.subcellT (shiftS d m).fCen ((shiftS d m).cellCen c)
        (Subcells.order (shiftS d m) c s) = Mpfao.subcellT m.fCen (m.cellCen c)
        (Subcells.order m c s) := by
      rw [order_shift]; exact subcellT_shift d m.fCen (m.cellCen c) _
    change wr _ _ (Mpfao.subcellT (shiftS d m).fCen ((shiftS d m).cellCen c)
      (Subcells.order (shiftS d m) c s)) = _
    rw [e, h1.T, en]

/-- The tables of the subcells are the same, but for the points in them, which move along. -/
theorem C213_subcells : MovedRes d (Subcells.setup m) (Subcells.setup (shiftS d m)) :=
  forN_rel (MovedRes d) m.numCells _ _
    (fun c _ _ hab => forN_rel (MovedRes d) m.nSub _ _
      (fun s _ _ hab => movedRes_bind d hab fun t t' ht => setupSubcell_shift d m c s t t' ht)
      _ _ hab) _ _
    (show Moved d Subcells.allocated Subcells.allocated from
      ⟨rfl, rfl, rfl, rfl, rfl, fun _ => Or.inr ⟨rfl, rfl⟩⟩)

end tables

/-! ## Velocities -/

section velocity

open TDy.Mpfao TDy.Mpfao.Spec TDy.Mpfao.Props Finset

theorem gtimesZ_shift (g d X : P3) : gtimesZ g (shift d X) = gtimesZ g X + gtimesZ g d := by
  have e : (0.0 : ℝ) = 0 := by norm_num
  simp only [gtimesZ, shift, e]; ring

/-- Recovered velocities stay if the density is the same everywhere and there is no function for the
pressure on the boundary.  Missing: other cases, see `C213_velocity_violated`. -/
theorem C213_velocity_partial (d g : P3) (cen : Nat → P3) (m : VelIn) (ok : VelOk m)
    (hT : RowsSumZero m) (hn : m.bndP = none) (ρ : ℝ) (hr : ∀ c, m.rho c = ρ) (s : VelSt) (f : Nat)
    (hf : f < m.numFaces) (ha : m.area f ≠ 0) :
    (recoverVelocity (placed m g fun c => shift d (cen c)) s).vel f =
      (recoverVelocity (placed m g cen) s).vel f := by
  have ok1 : ∀ cen, VelOk (placed m g cen) := fun cen => ⟨ok.bnd_le, ok.bnd_count⟩
  cases hl : (m.face f).isLocal
  · rw [C131_foreign_zero (ok1 _) s hf hl, C131_foreign_zero (ok1 _) s hf hl]
  have h1 := C131_formula (ok1 fun c => shift d (cen c)) s hf hl ha
  have h2 := C131_formula (ok1 cen) s hf hl ha
  have hp : ∀ c, potential (placed m g fun c => shift d (cen c)) c =
      potential (placed m g cen) c + ρ * gtimesZ g d := by
    intro c
    simp only [potential, placed, gtimesZ_shift, hr]; ring
  have hq : ∀ w k, pressureAt (placed m g fun c => shift d (cen c)) w k =
      pressureAt (placed m g cen) w k + ρ * gtimesZ g d := by
    intro w k
    have e : ∀ cen, pressureAt (placed m g cen) w k =
        potential (placed m g cen) (w.cell ((bndFaces m w)[k]?.getD (0, 0)).1) := by
      intro cen
      have : (placed m g cen).bndP = none := hn
      simp only [pressureAt, this]; rfl
    rw [e, e, hp]
  have e1 : overRows (placed m g fun c => shift d (cen c)) f
      (rate (placed m g fun c => shift d (cen c))) =
      overRows (placed m g cen) f (rate (placed m g cen)) := by
    refine sum_congr rfl fun v hv => sum_congr rfl fun i hi => ?_
    change (if RowsV (m.vert v) ∧ (m.vert v).face i = f then rate _ (m.vert v) i else 0) =
      (if RowsV (m.vert v) ∧ (m.vert v).face i = f then rate _ (m.vert v) i else 0)
    by_cases hR : RowsV (m.vert v) ∧ (m.vert v).face i = f
    · have hz := hT v (mem_range.1 hv) hR.1 i (mem_range.1 hi)
      rw [sum_range_add] at hz
      rw [if_pos hR, if_pos hR, rate, rate]
      simp only [hp, hq, mul_add, sum_add_distrib]
      rw [← sum_mul, ← sum_mul]
      linear_combination (-(ρ * gtimesZ g d)) * hz
    · rw [if_neg hR, if_neg hR]
  have e2 : overCorners (placed m g fun c => shift d (cen c)) f
      (cornerRate (placed m g fun c => shift d (cen c))) =
      overCorners (placed m g cen) f (cornerRate (placed m g cen)) := rfl
  rw [e1, e2, ← h2] at h1
  exact mul_left_cancel₀ ha h1

namespace PlaceWitness

/-- An inner vertex with two cells of densities 1 and 2, one above the other, and the face between
them. -/
noncomputable def m : VelIn :=
  { numVertices := 1, numFaces := 1
    vert := fun _ => { isLocal := true, nFaces := 1, nBnd := 0, nCells := 2, cell := fun k => k
                       face := fun i => i, T := fun _ k => if k = 0 then 1 else -1
                       subFace := fun _ _ => 0, G := fun _ _ => 0 }
    face := fun _ => ⟨0, 1, true⟩, isLocal := fun _ => true, internal := fun _ => true
    area := fun _ => 1, u := fun _ => 0, rho := fun c => c + 1, gz := fun _ => 0
    bndP := none, ref := none }

/-- Gravity along `z`. -/
def g : P3 := ⟨0, 0, 1⟩

/-- One unit upwards. -/
def up : P3 := ⟨0, 0, 1⟩

/-- Cells above each other. -/
def cen : Nat → P3 := fun c => ⟨0, 0, c⟩

theorem ok : VelOk m := by
  refine ⟨fun v _ => Nat.zero_le _, fun v _ _ => ?_⟩
  change (bndFaces m (m.vert v)).length = 0
  simp [bndFaces, m]

theorem rows : RowsSumZero m := by
  intro v _ _ i _
  change ∑ k ∈ range 2, (if k = 0 then (1:ℝ) else -1) = 0
  simp [sum_range_succ]

theorem vel (c : Nat → P3) (s : VelSt) : (recoverVelocity (placed m g c) s).vel 0 =
    2 * (c 1).z - (c 0).z := by
  have e : (0.0 : ℝ) = 0 := by norm_num
  simp [recoverVelocity, placed, m, forN, velInternal, velCorner, velShared, addVel, cellPart,
    potential, gtimesZ, g, e]
  ring

/-- The column of two cells of the same density, with zero pressure on the boundary. -/
noncomputable def col : VelIn := ColumnWitness.m 1 (some fun _ => 0) none

theorem velCol (c : Nat → P3) (s : VelSt) : (recoverVelocity (placed col g c) s).vel 2 =
    -2 + (c 1).z := by
  have ok1 : VelOk (placed col g c) :=
    ⟨(ColumnWitness.ok 1 (some fun _ => 0) none).bnd_le,
      (ColumnWitness.ok 1 (some fun _ => 0) none).bnd_count⟩
  have h := C131_formula ok1 s (f := 2) (show 2 < 3 by decide) rfl (by simp [placed, col, ColumnWitness.m])
  have e : overCorners (placed col g c) 2 (cornerRate (placed col g c)) = 0 :=
    sum_eq_zero fun v _ => sum_eq_zero fun i _ =>
      if_neg fun h => absurd h.1.2 (show ¬(2:Nat) ≤ 1 by decide)
  have e1 : overRows (placed col g c) 2 (rate (placed col g c)) =
      rate (placed col g c) ColumnWitness.vert 2 :=
    ColumnWitness.overRows_eq 1 (some fun _ => 0) none _ 2 (by decide)
  rw [e, e1] at h
  have e2 : rate (placed col g c) ColumnWitness.vert 2 = -2 + (c 1).z := by
    have e : (0.0 : ℝ) = 0 := by norm_num
    simp [rate, pressureAt, placed, col, ColumnWitness.m, ColumnWitness.vert, ColumnWitness.T,
      sum_range_succ, potential, gtimesZ, g, e]
    ring
  rw [e2] at h
  have ha : (placed col g c).area 2 = 1 := rfl
  rw [ha, one_mul, sub_zero] at h
  exact h

end PlaceWitness

/-- **C213 (negative).**  Recovered velocities depend on the height of the mesh where the density
varies, and with one density too if the pressure on the boundary is given: `rho g z` with the height of
the place itself is added to the pressures of the cells, but not to those of the boundary. -/
theorem C213_velocity_violated :
    (∃ (m : VelIn) (g d : P3) (cen : Nat → P3) (f : Nat), VelOk m ∧ RowsSumZero m ∧ m.bndP = none ∧
      f < m.numFaces ∧ m.area f ≠ 0 ∧ ∀ s, (recoverVelocity (placed m g fun c => shift d (cen c)) s).vel f ≠
        (recoverVelocity (placed m g cen) s).vel f) ∧
    (∃ (m : VelIn) (g d : P3) (cen : Nat → P3) (f : Nat), VelOk m ∧ RowsSumZero m ∧
      (∃ ρ, ∀ c, m.rho c = ρ) ∧ f < m.numFaces ∧ m.area f ≠ 0 ∧
      ∀ s, (recoverVelocity (placed m g fun c => shift d (cen c)) s).vel f ≠
        (recoverVelocity (placed m g cen) s).vel f) := by
  refine ⟨⟨PlaceWitness.m, PlaceWitness.g, PlaceWitness.up, PlaceWitness.cen, 0, PlaceWitness.ok,
    PlaceWitness.rows, rfl, by decide, by simp [PlaceWitness.m], fun s => ?_⟩,
    ⟨PlaceWitness.col, PlaceWitness.g, PlaceWitness.up, PlaceWitness.cen, 2,
      ColumnWitness.ok _ _ _, ColumnWitness.rows _ _ _, ⟨1, fun _ => rfl⟩, by decide,
      by simp [PlaceWitness.col, ColumnWitness.m], fun s => ?_⟩⟩
  · rw [PlaceWitness.vel, PlaceWitness.vel]
    norm_num [shift, PlaceWitness.up, PlaceWitness.cen]
  · rw [PlaceWitness.velCol, PlaceWitness.velCol]
    norm_num [shift, PlaceWitness.up, PlaceWitness.cen]

/-- Without the pressure on the boundary the velocities of the column do not depend on its height. -/
example (d : P3) (s : VelSt) :
    (recoverVelocity (placed (ColumnWitness.m 2 none none) PlaceWitness.g
      fun c => shift d (PlaceWitness.cen c)) s).vel 2 =
    (recoverVelocity (placed (ColumnWitness.m 2 none none) PlaceWitness.g PlaceWitness.cen) s).vel 2 :=
  C213_velocity_partial d _ _ _ (ColumnWitness.ok _ _ _) (ColumnWitness.rows _ _ _) rfl 1
    (fun _ => rfl) s 2 (by decide) (by norm_num [ColumnWitness.m])

end velocity

/-! ## The coupled mode -/

section coupled

open TDy.Mpfao

/-- The residual of the TH mode stays when the mesh is raised. -/
theorem C213_th_residual (t : Th) (h : ℝ) (dpdt dTdt : Nat → ℝ) :
    thFunction (raised h t) dpdt dTdt = thFunction t dpdt dTdt := rfl

/-- **C213 (negative).**  The Jacobian of the TH mode does not: raising the mesh changes the derivative
of the water flux with respect to the pressure of the up cell in proportion to the height. -/
theorem C213_jacobian_violated (t : Th) (h : ℝ) (f : MFace) (hf : 0 ≤ f.up) (TP T tT : ℝ) :
    (thBlock (raised h t) f TP T tT f.up.toNat).mP - (thBlock t f TP T tT f.up.toNat).mP =
      denAvg t.base f * ukvrTP t.base f TP * T * (0.5 * (t.base.cells f.up.toNat).drho) * h := by
  have e : thUp f = f.up := if_neg (not_lt.mpr hf)
  have c : thUp f > -1 ∧ (f.up.toNat : ℤ) = thUp f := by
    rw [e]; exact ⟨by omega, Int.toNat_of_nonneg hf⟩
  have key : ∀ t' : Th, (thBlock t' f TP T tT f.up.toNat).mP =
      (0.5 * (t'.base.cells (thUp f).toNat).drho) * ukvrTP t'.base f TP * TP + denAvg t'.base f *
        (open Classical in if TP < 0.0 ∧ 0 ≤ f.up then dukvrCell (t'.base.cells f.up.toNat) else 0.0) *
        TP + denAvg t'.base f * ukvrTP t'.base f TP * T *
        (1.0 + (0.5 * (t'.base.cells (thUp f).toNat).drho) * (t'.heat f.up.toNat).gz) := by
    intro t'
    unfold thBlock
    dsimp only
    rw [if_pos c]
    rfl
  rw [key, key, e]
  have g : ((raised h t).heat f.up.toNat).gz = (t.heat f.up.toNat).gz + h := rfl
  have b : (raised h t).base = t.base := rfl
  rw [g, b]
  generalize (1.0 : ℝ) = one
  generalize (0.5 : ℝ) = half
  ring

/-- A change of one for a face between cells 0 and 1 with density 1 in both, whose derivative is 2, and
mobility 1. -/
example (t : Th) (h : ∀ c, (t.base.cells c).rho = 1 ∧ (t.base.cells c).drho = 2 ∧
      (t.base.cells c).Kr = 1 ∧ (t.base.cells c).vis = 1) :
    (thBlock (raised 1 t) ⟨0, 1, true⟩ (-1) 1 0 0).mP -
      (thBlock t ⟨0, 1, true⟩ (-1) 1 0 0).mP = 1 := by
  have := C213_jacobian_violated t 1 ⟨0, 1, true⟩ (le_refl 0) (-1) 1 0
  refine this.trans ?_
  norm_num [denAvg, ukvrTP, side, h]

end coupled

/-! ## A unit tetrahedron, moved -/

namespace ShiftWitness

/-- The corners of the unit tetrahedron. -/
def x : Nat → P3
  | 0 => ⟨0, 0, 0⟩ | 1 => ⟨1, 0, 0⟩ | 2 => ⟨0, 1, 0⟩ | _ => ⟨0, 0, 1⟩

/-- Moved anywhere it has the volume 1/6, and its centroid is a quarter of the edges away from its
first corner. -/
example (d : P3) : cellVolume (fun i => shift d (x i)) 4 = some (1 / 6) ∧
    cellCentroid (fun i => shift d (x i)) 4 = ⟨1 / 4 + d.x, 1 / 4 + d.y, 1 / 4 + d.z⟩ := by
  rw [(C213_cells d x 4).1, (C213_cells d x 4).2 (by decide)]
  constructor
  · norm_num [cellVolume, tetVolume2, dot, cross, join, x]
  · norm_num [cellCentroid, forN, shift, x]

/-- A face with vertices 0, 1, 2 and centroid as the mean. -/
example (d : P3) : FaceGeom.ugridArea (fun i => shift d (x i)) [0, 1, 2] = some (1 / 2) ∧
    FaceGeom.ugridCentroid (fun i => shift d (x i)) [0, 1, 2, -1] =
      ⟨1 / 3 + d.x, 1 / 3 + d.y, d.z⟩ := by
  have h := C213_own_faces d x ⟨0, 0, 0⟩ ⟨0, 0, 0⟩ [0, 1, 2] [0, 1, 2, -1] ⟨0, by simp, le_refl 0⟩
  rw [h.2.1, h.2.2]
  constructor
  · norm_num [FaceGeom.ugridArea, FaceGeom.triArea, dot, cross, join, x]
  · have e : (2 : ℤ).toNat = 2 := rfl
    norm_num [FaceGeom.ugridCentroid, shift, x, List.filter, e]

end ShiftWitness

end TDy.Geo.Props
