import Verif.Props.Grow
import Mathlib.LinearAlgebra.Matrix.NonsingularInverse

/-!
# C219: another unit of length in the MPFA-O method
-/

namespace TDy.Geo.Props

open TDy.Geo.Spec

/-! ## The order of the cells around vertices -/

section traverse

open TDy.Traverse

variable {s : ℝ} {m : TMesh}

theorem antiClock_grow (hs : 0 < s) (a b c : P3) :
    antiClock (grow s a) (grow s b) (grow s c) = antiClock a b c := by
  have z : (0.0 : ℝ) = 0 := by norm_num
  have e : (cross ⟨(grow s b).x - (grow s a).x, (grow s b).y - (grow s a).y, 0.0⟩
      ⟨(grow s c).x - (grow s a).x, (grow s c).y - (grow s a).y, 0.0⟩).z =
      s ^ 2 * (cross ⟨b.x - a.x, b.y - a.y, 0.0⟩ ⟨c.x - a.x, c.y - a.y, 0.0⟩).z := by
    simp only [cross, grow]; ring
  unfold antiClock
  rw [e]
  simp only [z, gt_iff_lt, mul_pos_iff_of_pos_left (pow_pos hs 2)]

variable (hs : 0 < s) (h : Resolved s m)

include hs h

theorem sameXY_grow : sameXY (growT s m) = sameXY m := by
  funext v w
  have z : (0.0 : ℝ) = 0 := by norm_num
  have t : (1e-14 : ℝ) = 1 / 10 ^ 14 := by norm_num
  have e : 0.0 + (s * (m.coord v).x - s * (m.coord w).x) * (s * (m.coord v).x - s * (m.coord w).x)
      + (s * (m.coord v).y - s * (m.coord w).y) * (s * (m.coord v).y - s * (m.coord w).y) =
      s ^ 2 * (((m.coord v).x - (m.coord w).x) ^ 2 + ((m.coord v).y - (m.coord w).y) ^ 2) := by
    rw [z]; ring
  have e' : 0.0 + ((m.coord v).x - (m.coord w).x) * ((m.coord v).x - (m.coord w).x)
      + ((m.coord v).y - (m.coord w).y) * ((m.coord v).y - (m.coord w).y) =
      ((m.coord v).x - (m.coord w).x) ^ 2 + ((m.coord v).y - (m.coord w).y) ^ 2 := by
    rw [z]; ring
  simp only [sameXY, growT, grow, e, e', t]
  rcases h v w with ⟨h1, h2⟩ | ⟨h1, h2⟩
  · simp [h1, h2]
  · simp only [not_lt.2 h1, not_lt.2 h2]

theorem verticalVertex_grow : verticalVertex (growT s m) = verticalVertex m := by
  funext c v
  simp only [verticalVertex, sameXY_grow hs h]; rfl

theorem isAbove_grow : isAbove (growT s m) = isAbove m := by
  funext c v
  simp only [isAbove, verticalVertex_grow hs h]
  split
  · simp only [growT, grow, gt_iff_lt, mul_lt_mul_iff_right₀ hs]
  · rfl

theorem hasBndEdge_grow : hasBndEdge (growT s m) = hasBndEdge m := by
  funext v c
  simp only [hasBndEdge, verticalVertex_grow hs h]; rfl

theorem splitBnd_grow : splitBnd (growT s m) = splitBnd m := by
  funext v l
  induction l with
  | nil => rfl
  | cons c cs ih => simp only [splitBnd, hasBndEdge_grow hs h, ih]

theorem aboveBelow_grow : aboveBelow (growT s m) = aboveBelow m := by
  funext v
  simp only [aboveBelow, levelOrder, splitBnd_grow hs h, isAbove_grow hs h]; rfl

theorem findStep_grow : findStep (growT s m) = findStep m := by
  funext v st
  have ho : saveOpposite (growT s m) = saveOpposite m := by
    funext v l r
    simp only [saveOpposite, vertexSameXY, verticalVertex_grow hs h]; rfl
  have hf : findAtVertex (growT s m) = findAtVertex m := by
    funext v st
    simp only [findAtVertex, aboveBelow_grow hs h, ho]
  simp only [findStep, hf]; rfl

theorem findAll_grow : findAll (growT s m) = findAll m := by
  simp only [findAll, findStep_grow hs h]; rfl

theorem greedy_grow : greedy (growT s m) = greedy m := by
  funext n
  induction n with
  | zero => rfl
  | succ n ih => funext c l; simp only [greedy, ih]; rfl

theorem circularOrder_grow : circularOrder (growT s m) = circularOrder m := by
  funext l
  simp only [circularOrder, greedy_grow hs h]; rfl

theorem antiClockwise_grow : antiClockwise (growT s m) = antiClockwise m := by
  funext v l
  have e : ∀ a b, antiClock ((growT s m).coord v) ((growT s m).cellCen a)
      ((growT s m).faceCen (sharedFace (growT s m) v a b)) =
      antiClock (m.coord v) (m.cellCen a) (m.faceCen (sharedFace m v a b)) :=
    fun a b => antiClock_grow hs _ _ _
  simp only [antiClockwise, e]

theorem alignLevels_grow : alignLevels (growT s m) = alignLevels m := by
  funext l k
  induction k with
  | nil => rfl
  | cons a as ih => simp only [alignLevels, ih]; rfl

theorem localCells_grow : localCells (growT s m) = localCells m := by
  funext v l
  induction l with
  | nil => rfl
  | cons a as ih => simp only [localCells, ih]; rfl

theorem addTwo_grow : addTwo (growT s m) = addTwo m := by
  funext v l t
  simp only [addTwo, upright, sameXY_grow hs h]; rfl

theorem addOne_grow : addOne (growT s m) = addOne m := by
  funext v c t
  have e : ∀ i, antiClock ((growT s m).coord v) ((growT s m).cellCen c)
      ((growT s m).faceCen (bndFace (growT s m) v i)) =
      antiClock (m.coord v) (m.cellCen c) (m.faceCen (bndFace m v i)) :=
    fun i => antiClock_grow hs _ _ _
  simp only [addOne, e]; rfl

theorem convert_grow : convert (growT s m) = convert m := by
  funext v l
  simp only [convert, addTwo_grow hs h, addOne_grow hs h, localCells_grow hs h]; rfl

theorem addFlat_grow : addFlat (growT s m) = addFlat m := by
  funext v l
  induction l with
  | nil => rfl
  | cons c cs ih => funext ii u t; simp only [addFlat, ih]; rfl

theorem upToDown_grow : upToDown (growT s m) = upToDown m := by
  funext v A B
  have hr : rearrange (growT s m) = rearrange m := by
    funext v A B
    simp only [rearrange, circularOrder_grow hs h, antiClockwise_grow hs h, alignLevels_grow hs h]
  have ha : addUpDown (growT s m) = addUpDown m := by
    funext v l t u
    simp only [addUpDown, addFlat_grow hs h]; rfl
  simp only [upToDown, hr, convert_grow hs h, ha]; rfl

theorem upwindAll_grow (st : Rows) (n : Nat) : upwindAll (growT s m) st n = upwindAll m st n := by
  have hu : upwindFaces (growT s m) = upwindFaces m := by
    funext v st
    simp only [upwindFaces, upToDown_grow hs h]; rfl
  induction n with
  | zero => rfl
  | succ n ih => simp only [upwindAll, ih, hu]; rfl

end traverse

/-- **C219, partial.**  The connections of cells around the vertices stay, if in both units no two
vertices come closer than `10^-7` horizontally without being straight above each other.  Missing: finer
meshes, for which they are lost. -/
theorem C219_traversal_partial {s : ℝ} (hs : 0 < s) {m : Traverse.TMesh} (h : Resolved s m) :
    Traverse.setupTraversal (growT s m) = Traverse.setupTraversal m := by
  simp only [Traverse.setupTraversal, findAll_grow hs h, upwindAll_grow hs h]; rfl

/-- The eight cubes in centimetres instead of metres. -/
example : Traverse.setupTraversal (growT 100 Traverse.Cube.cube) =
    Traverse.setupTraversal Traverse.Cube.cube := by
  refine C219_traversal_partial (by norm_num) fun v w => ?_
  by_cases h : Traverse.Cube.xs v = Traverse.Cube.xs w ∧ Traverse.Cube.ys v = Traverse.Cube.ys w
  · exact .inl ⟨congrArg (Nat.cast (R := ℝ)) h.1, congrArg (Nat.cast (R := ℝ)) h.2⟩
  · right
    have key : ∀ a b : Nat, a ≠ b → (1 : ℝ) ≤ ((a : ℝ) - (b : ℝ)) ^ 2 := by
      intro a b hab
      have : (1 : ℤ) ≤ ((a : ℤ) - (b : ℤ)) ^ 2 := by
        have : ((a : ℤ) - (b : ℤ)) ≠ 0 := by omega
        have := sq_pos_of_ne_zero this
        omega
      exact_mod_cast this
    have h1 : (1 : ℝ) ≤ ((Traverse.Cube.xs v : ℝ) - (Traverse.Cube.xs w : ℝ)) ^ 2 +
        ((Traverse.Cube.ys v : ℝ) - (Traverse.Cube.ys w : ℝ)) ^ 2 := by
      by_cases hx : Traverse.Cube.xs v = Traverse.Cube.xs w
      · have := key _ _ (fun hy => h ⟨hx, hy⟩)
        have := sq_nonneg ((Traverse.Cube.xs v : ℝ) - (Traverse.Cube.xs w : ℝ))
        linarith
      · have := key _ _ hx
        have := sq_nonneg ((Traverse.Cube.ys v : ℝ) - (Traverse.Cube.ys w : ℝ))
        linarith
    refine ⟨le_trans (by norm_num) h1, le_trans ?_ (mul_le_mul_of_nonneg_left h1 (by norm_num))⟩
    norm_num

/-- **C219 violated.**  The cell that is above a vertex of the eight cubes is below it when their length is
given as `10^-8` instead of 1. -/
theorem C219_tiny_violated : Traverse.aboveBelow Traverse.Cube.cube 0 = .ok ([0], []) ∧
    Traverse.aboveBelow (growT (1 / 10 ^ 8) Traverse.Cube.cube) 0 = .ok ([], [0]) := by
  have c0 : Traverse.Cube.cube.cellVerts 0 = [0, 1, 3, 4, 9, 10, 12, 13] := rfl
  have vc : Traverse.Cube.cube.vCells 0 = [0] := rfl
  have co : ∀ v, Traverse.Cube.cube.coord v =
    ⟨(Traverse.Cube.xs v : ℝ), (Traverse.Cube.ys v : ℝ), (Traverse.Cube.zs v : ℝ)⟩ := fun _ => rfl
  have h1 : Traverse.verticalVertex Traverse.Cube.cube 0 0 = some 9 := by
    simp only [Traverse.verticalVertex, c0, Traverse.sameXY, co]
    simp [List.find?, Traverse.Cube.xs, Traverse.Cube.ys, Traverse.Cube.vxyz]
    norm_num
  have h2 : Traverse.verticalVertex (growT (1 / 10 ^ 8) Traverse.Cube.cube) 0 0 = some 1 := by
    simp only [Traverse.verticalVertex, growT, grow, c0, Traverse.sameXY, co]
    simp [List.find?, Traverse.Cube.xs, Traverse.Cube.ys, Traverse.Cube.vxyz]
    norm_num
  have a1 : Traverse.isAbove Traverse.Cube.cube 0 0 = true := by
    simp only [Traverse.isAbove, h1, co]
    simp [Traverse.Cube.zs, Traverse.Cube.vxyz]
  have a2 : Traverse.isAbove (growT (1 / 10 ^ 8) Traverse.Cube.cube) 0 0 = false := by
    have z : ∀ v, ((growT (1 / 10 ^ 8) Traverse.Cube.cube).coord v).z =
      1 / 10 ^ 8 * (Traverse.Cube.zs v : ℝ) := fun _ => rfl
    simp only [Traverse.isAbove, h2, z]
    simp [Traverse.Cube.zs, Traverse.Cube.vxyz]
  have vc' : (growT (1 / 10 ^ 8) Traverse.Cube.cube).vCells 0 = [0] := rfl
  constructor
  · simp [Traverse.aboveBelow, vc, a1, Traverse.levelOrder, Traverse.Out.bind]
  · unfold Traverse.aboveBelow
    rw [vc']
    simp only [List.filter_cons, a2, List.filter_nil]
    simp [Traverse.levelOrder, Traverse.Out.bind]

/-! ## The tables of the subcells -/

theorem nuVector_grow (s : ℝ) (fc : Nat → P3) (cen : P3) (f : Fin 3 → Nat) (k : Fin 3) :
    Mpfao.nuVector (fun i => grow s (fc i)) (grow s cen) f k =
      grow (s ^ 2) (Mpfao.nuVector fc cen f k) := by
  unfold Mpfao.nuVector
  split <;> simp only [normalTriangle_grow]

theorem subcellT_grow {s : ℝ} (hs : 0 < s) (fc : Nat → P3) (cen : P3) (f : Fin 3 → Nat) :
    Mpfao.subcellT (fun i => grow s (fc i)) (grow s cen) f = s ^ 3 * Mpfao.subcellT fc cen f := by
  simp only [Mpfao.subcellT, tetVolume_grow hs, mul_assoc]

theorem orientFaces_grow {s : ℝ} (hs : 0 < s) (fc : Nat → P3) (cen v : P3) (f : Fin 3 → Nat) :
    Mpfao.orientFaces (fun i => grow s (fc i)) (grow s cen) (grow s v) f =
      Mpfao.orientFaces fc cen v f := by
  have h : ∀ p q : P3, (dot (grow (s * s) p) (grow s q) < 0) = (dot p q < 0) := by
    intro p q
    rw [dot_grow]
    have hp : 0 < s * s * s := by positivity
    exact propext ⟨fun h => by
      by_contra hn
      exact absurd h (not_lt.2 (mul_nonneg hp.le (not_lt.1 hn))), fun h => mul_neg_of_pos_of_neg hp h⟩
  simp only [Mpfao.orientFaces, join_grow, cross_grow, h]

section tables

variable {s : ℝ} (hs : 0 < s) (m : Subcells.Mesh)

theorem grownRes_bind {r r' : Res Subcells.Tables} {f f' : Subcells.Tables → Res Subcells.Tables}
    (h : GrownRes s r r') (hf : ∀ t t', Grown s t t' → GrownRes s (f t) (f' t')) :
    GrownRes s (r.bind f) (r'.bind f') := by
  cases r <;> cases r' <;> first | exact hf _ _ h | exact h | exact absurd h id

theorem wr_map {α β : Type} (g : α → β) {a : Nat → α} {a' : Nat → β} (h : ∀ k, a' k = g (a k)) (i : Nat)
    (p : α) (k : Nat) : wr a' i (g p) k = g (wr a i p k) := by
  by_cases hk : k = i
  · subst hk; rw [wr_same, wr_same]
  · rw [wr_other _ _ hk, wr_other _ _ hk, h]

theorem subfaceCen_grow (s : ℝ) (v f : Nat) (n : Nat × Nat) :
    Subcells.subfaceCen (growS s m) v f n = grow s (Subcells.subfaceCen m v f n) := by
  have e : (2.0 : ℝ) = 2 := by norm_num
  have e4 : (4.0 : ℝ) = 4 := by norm_num
  ext <;> simp only [Subcells.subfaceCen, Subcells.mean, growS, grow, e, e4] <;> ring

include hs

theorem order_grow : Subcells.order (growS s m) = Subcells.order m := by
  funext c i
  exact orientFaces_grow hs m.fCen (m.cellCen c) (m.coord (m.cellVertex c i)) _

theorem writeFace_grow (c j i : Nat) (t t' : Subcells.Tables) (h : Grown s t t') :
    GrownRes s (Subcells.writeFace m c j i t) (Subcells.writeFace (growS s m) c j i t') := by
  have hn : Subcells.neighbours (growS s m) = Subcells.neighbours m := rfl
  simp only [Subcells.writeFace, order_grow hs, hn, subfaceCen_grow]
  have hv : (growS s m).cellVertex = m.cellVertex := rfl
  rw [hv]
  cases Subcells.neighbours m (Subcells.nth (Subcells.order m c j) i) (m.cellVertex c j) with
  | none => trivial
  | some n =>
    refine ⟨h.faceIds, h.vertexIds, ?_, ?_, h.T, ?_, h.faceCen⟩
    · intro k
      change wr t'.faceArea _ (s ^ 2 * m.area _ / _) k = s ^ 2 * wr t.faceArea _ _ k
      rw [mul_div_assoc]
      exact wr_map (fun a => s ^ 2 * a) h.faceArea _ _ k
    · have e : Mpfao.nuVector (growS s m).fCen ((growS s m).cellCen c) (Subcells.order m c j)
          (Subcells.fin i) = _ := nuVector_grow s m.fCen (m.cellCen c) _ _
      intro k
      change wr t'.nu _ _ k = grow (s ^ 2) (wr t.nu _ _ k)
      rw [e]
      exact wr_map (grow (s ^ 2)) h.nu _ _ k
    · intro k
      exact wr_map (grow s) h.contin _ _ k

theorem setupSubcell_grow (c j : Nat) (t t' : Subcells.Tables) (h : Grown s t t') :
    GrownRes s (Subcells.setupSubcell m c j t) (Subcells.setupSubcell (growS s m) c j t') := by
  have he : Subcells.sharedFaces (growS s m) = Subcells.sharedFaces m := rfl
  have hv : (growS s m).cellVertex = m.cellVertex := rfl
  have en : (growS s m).nSub = m.nSub := rfl
  simp only [Subcells.setupSubcell, he, hv]
  by_cases hc : (Subcells.sharedFaces m c (m.cellVertex c j)).num ≠ 3
  · rw [if_pos hc, if_pos hc]; trivial
  · rw [if_neg hc, if_neg hc]
    refine forN_rel (GrownRes s) 3 _ _
      (fun i a b hab => grownRes_bind hab fun t t' ht => writeFace_grow hs m c j i t t' ht) _ _ ?_
    have h1 := forN_rel (Grown s) 3 (fun k t => Subcells.writeIds m c j k t)
      (fun k t => Subcells.writeIds (growS s m) c j k t)
      (fun k a b hab => ⟨by
          change wr b.faceIds _ _ = wr a.faceIds _ _
          rw [order_grow hs, hab.faceIds, en], by
          change wr b.vertexIds _ _ = wr a.vertexIds _ _
          rw [hab.vertexIds, hv, en], hab.faceArea, hab.nu, hab.T, hab.contin, hab.faceCen⟩) t t' h
    refine ⟨h1.faceIds, h1.vertexIds, h1.faceArea, h1.nu, ?_, h1.contin, h1.faceCen⟩
    have e : Mpfao.subcellT (growS s m).fCen ((growS s m).cellCen c)
        (Subcells.order (growS s m) c j) = s ^ 3 * Mpfao.subcellT m.fCen (m.cellCen c)
        (Subcells.order m c j) := by
      rw [order_grow hs]; exact subcellT_grow hs m.fCen (m.cellCen c) _
    intro k
    change wr _ _ (Mpfao.subcellT (growS s m).fCen ((growS s m).cellCen c)
      (Subcells.order (growS s m) c j)) k = s ^ 3 * wr _ _ _ k
    rw [e, en]
    exact wr_map (fun a => s ^ 3 * a) h1.T _ _ k

end tables

/-- The tables of the subcells: areas, volumes and points follow the unit, everything else is the same. -/
theorem C219_subcells {s : ℝ} (hs : 0 < s) (m : Subcells.Mesh) :
    GrownRes s (Subcells.setup m) (Subcells.setup (growS s m)) :=
  forN_rel (GrownRes s) m.numCells _ _
    (fun c _ _ hab => forN_rel (GrownRes s) m.nSub _ _
      (fun j _ _ hab => grownRes_bind hab fun t t' ht => setupSubcell_grow hs m c j t t' ht)
      _ _ hab) _ _
    (show Grown s Subcells.allocated Subcells.allocated from
      ⟨rfl, rfl, fun _ => (mul_zero _).symm, fun _ => (zero_grow _).symm, fun _ => (mul_zero _).symm,
        fun _ => (zero_grow s).symm, fun _ => (zero_grow s).symm⟩)

/-! ## The coefficients -/

theorem entryOfG_grow {s : ℝ} (hs : 0 < s) (area : ℝ) (n : P3) (K : Fin 3 → Fin 3 → ℝ) (v : P3) (T : ℝ) :
    Mpfao.entryOfG (s ^ 2 * area) n K (grow (s ^ 2) v) (s ^ 3 * T) = s * Mpfao.entryOfG area n K v T := by
  have z : (0.0 : ℝ) = 0 := by norm_num
  have o : (1.0 : ℝ) = 1 := by norm_num
  have h := hs.ne'
  simp only [Mpfao.entryOfG, grow, z, o, one_div, mul_inv]
  field_simp
  ring

/-- The matrices of the subcells are multiplied by `s`. -/
theorem C219_matrices {s : ℝ} (hs : 0 < s) (K : Fin 3 → Fin 3 → ℝ) (area : Nat → ℝ) (normal fc : Nat → P3)
    (cen : P3) (f : Fin 3 → Nat) (i j : Fin 3) :
    Mpfao.gMatrix K (fun k => s ^ 2 * area k) normal (fun k => grow s (fc k)) (grow s cen) f i j =
      s * Mpfao.gMatrix K area normal fc cen f i j := by
  simp only [Mpfao.gMatrix, nuVector_grow, subcellT_grow hs, entryOfG_grow hs]

section grav

variable {s : ℝ} (hs : 0 < s) (m : Mpfao.GravCtx)

theorem tpfPoint_grow (s : ℝ) (c f : Nat) :
    Mpfao.tpfPoint (growG s m) c f = grow s (Mpfao.tpfPoint m c f) :=
  ite_grow s _ _ _

theorem sidePoint_grow (s : ℝ) (f : Nat) (id : ℤ) :
    Mpfao.sidePoint (growG s m) f id = grow s (Mpfao.sidePoint m f id) :=
  ite_grow s _ _ _

include hs

theorem lengthOf_grow (p q : P3) : Mpfao.lengthOf (grow s p) (grow s q) = s * Mpfao.lengthOf p q := by
  have z : (0.0 : ℝ) = 0 := by norm_num
  have e : ∀ p q, Mpfao.lengthOf p q = Real.sqrt (dot (join q p) (join q p)) := by
    intro p q
    simp only [Mpfao.lengthOf, dot_g, join, z]
    congr 1
    ring
  rw [e, e, join_grow, sqrt_grow hs]

theorem tpfDist_grow (c f : Nat) : Mpfao.tpfDist (growG s m) c f = s * Mpfao.tpfDist m c f := by
  have e : Mpfao.lengthOf (Mpfao.tpfPoint (growG s m) c f) ((growG s m).cellCen c) =
      s * Mpfao.lengthOf (Mpfao.tpfPoint m c f) (m.cellCen c) := by
    rw [tpfPoint_grow]; exact lengthOf_grow hs _ _
  have eo : Mpfao.tpfOther (growG s m) = Mpfao.tpfOther m := rfl
  simp only [Mpfao.tpfDist, e, eo]
  split
  · rw [mul_assoc]
  · rfl

theorem tpfDir_grow : Mpfao.tpfDir (growG s m) = Mpfao.tpfDir m := by
  funext c f
  have e : (growG s m).cellCen c = grow s (m.cellCen c) := rfl
  simp only [Mpfao.tpfDir, tpfPoint_grow, e, unitJoin_grow hs]

theorem upDown_grow : Mpfao.upDown (growG s m) = Mpfao.upDown m := by
  funext f
  have e : (growG s m).face = m.face := rfl
  simp only [Mpfao.upDown, sidePoint_grow, unitJoin_grow hs, e]

theorem wtUp_grow : Mpfao.wtUp (growG s m) = Mpfao.wtUp m := by
  have z : (0.0 : ℝ) = 0 := by norm_num
  have h : ∀ f id, Mpfao.sideDist (growG s m) f id = s * Mpfao.sideDist m f id := by
    intro f id
    simp only [Mpfao.sideDist, growG, join_grow, norm_grow hs, z]
    split
    · rfl
    · rw [mul_zero]
  have e : (growG s m).face = m.face := rfl
  funext f
  simp only [Mpfao.wtUp, h, e, ← mul_add, mul_div_mul_left _ _ hs.ne']

theorem gravDis_grow (f : Nat) (a : ℝ) :
    Mpfao.gravDis (growG s m) f (s ^ 2 * a) = s ^ 2 * Mpfao.gravDis m f a := by
  have h1 : Mpfao.permTPF (growG s m) f = Mpfao.permTPF m f := by
    simp only [Mpfao.permTPF, upDown_grow hs, wtUp_grow hs]; rfl
  have h2 : Mpfao.permMPFAO (growG s m) f = Mpfao.permMPFAO m f := by
    have e : Mpfao.faceInv (growG s m) f = Mpfao.faceInv m f := by
      funext n
      simp only [Mpfao.faceInv, wtUp_grow hs]; rfl
    simp only [Mpfao.permMPFAO, Mpfao.faceTensor, e, upDown_grow hs]; rfl
  have en : (growG s m).normal = m.normal := rfl
  have eg : (growG s m).gravity = m.gravity := rfl
  have et : (growG s m).tpf = m.tpf := rfl
  simp only [Mpfao.gravDis, h1, h2, upDown_grow hs, en, eg, et]
  split <;> ring

end grav

/-- The matrices with the two-point option are multiplied by `s`, those of heat too. -/
theorem C219_two_point {s : ℝ} (hs : 0 < s) (m : Mpfao.GravCtx) (Kappa0 area : Nat → ℝ) (c : Nat)
    (face : Nat → Nat) (T : ℝ) (i j : Nat) :
    Mpfao.tpfG (growG s m) (fun k => s ^ 2 * area k) c face i j = s * Mpfao.tpfG m area c face i j ∧
      Mpfao.tpfTempG (growG s m) Kappa0 (fun k => s ^ 2 * area k) c face (s ^ 3 * T) i j =
        s * Mpfao.tpfTempG m Kappa0 area c face T i j := by
  have z : (0.0 : ℝ) = 0 := by norm_num
  have en : (growG s m).normal = m.normal := rfl
  constructor
  · have hp : Mpfao.tpfPerm (growG s m) = Mpfao.tpfPerm m := by
      funext c f
      simp only [Mpfao.tpfPerm, tpfDir_grow hs]; rfl
    have h : ∀ x d : ℝ, s ^ 2 * x / (s * d) = s * (x / d) := by
      intro x d
      rw [sq, mul_assoc, mul_div_mul_left _ _ hs.ne', mul_div_assoc]
    simp only [Mpfao.tpfG, Mpfao.tpfEntry, hp, tpfDir_grow hs, tpfDist_grow hs, en, mul_assoc, h, z]
    split
    · rw [mul_zero]
    · rfl
  · have h : Mpfao.nuStar (growG s m) (s ^ 3 * T) c (face i) =
        grow (s ^ 2) (Mpfao.nuStar m T c (face i)) := by
      have e : ∀ d x l : ℝ, d * (s ^ 3 * x) / (s * l) = s ^ 2 * (d * x / l) := by
        intro d x l
        rw [show d * (s ^ 3 * x) = s * (s ^ 2 * (d * x)) by ring, mul_div_mul_left _ _ hs.ne',
          mul_div_assoc]
      simp only [Mpfao.nuStar, tpfDir_grow hs, tpfDist_grow hs, en, grow, e]
    simp only [Mpfao.tpfTempG, h, en, entryOfG_grow hs, z]
    split
    · rfl
    · rw [mul_zero]

/-- The gravity coefficients are multiplied by the square of `s`, as pressures per length are by its
inverse. -/
theorem C219_gravity {s : ℝ} (hs : 0 < s) (m : Mpfao.GravCtx) (g : Nat → ℝ) :
    Mpfao.gravity (growG s m) (fun k => s ^ 2 * g k) =
      (Mpfao.gravity m g).map fun g k => s ^ 2 * g k := by
  have ha : Mpfao.subArea (growG s m) = fun k => s ^ 2 * Mpfao.subArea m k := by
    have key := forN_rel (fun (a a' : Nat → ℝ) => a' = fun k => s ^ 2 * a k) m.numCells
      (fun icell a => forN m.nSub (fun isub a =>
        forN 3 (fun d a => wr a (Mpfao.flat m icell isub d)
          (m.area (m.cellFace icell isub d) / m.faceVerts (m.cellFace icell isub d))) a) a)
      (fun icell a => forN m.nSub (fun isub a =>
        forN 3 (fun d a => wr a (Mpfao.flat m icell isub d)
          (s ^ 2 * m.area (m.cellFace icell isub d) / m.faceVerts (m.cellFace icell isub d))) a) a)
      (fun c _ _ hab => forN_rel (fun (a a' : Nat → ℝ) => a' = fun k => s ^ 2 * a k) m.nSub _ _
        (fun j _ _ hab => forN_rel (fun (a a' : Nat → ℝ) => a' = fun k => s ^ 2 * a k) 3 _ _
          (fun d a a' hab => by
            funext k
            rw [mul_div_assoc]
            exact wr_map (fun x => s ^ 2 * x) (fun k => congrFun hab k) _ _ k) _ _ hab) _ _ hab)
      (fun _ => 0) (fun _ => 0) (by funext _; rw [mul_zero])
    exact key
  have hst : ∀ v i g, Mpfao.gravStep (growG s m) v i (fun k => s ^ 2 * g k) =
      (Mpfao.gravStep m v i g).map fun g k => s ^ 2 * g k := by
    intro v i g
    have e1 : (growG s m).face = m.face := rfl
    have e2 : (growG s m).vFace = m.vFace := rfl
    have e3 : (growG s m).neumann = m.neumann := rfl
    have e4 : Mpfao.findSub (growG s m) = Mpfao.findSub m := rfl
    have e5 : Mpfao.hasCell (growG s m) = Mpfao.hasCell m := rfl
    have e6 : (growG s m).vSub = m.vSub := rfl
    simp only [Mpfao.gravStep, ha, gravDis_grow hs, e1, e2, e3, e4, e5, e6]
    split
    · rfl
    · split
      · rfl
      · cases Mpfao.findSub m _ v (m.vFace v i) with
        | none => rfl
        | some k =>
          simp only [Option.bind_some]
          split
          · simp only [Option.map_some, Option.some.injEq]
            funext n
            exact wr_map (fun x => s ^ 2 * x) (fun _ => rfl) _ _ n
          · rfl
  refine forN_rel (fun (a a' : Option (Nat → ℝ)) => a' = a.map fun g k => s ^ 2 * g k) m.numVertices _ _
    (fun v a a' hab => ?_) _ _ rfl
  have e1 : (growG s m).vLocal = m.vLocal := rfl
  have e2 : (growG s m).nFaces = m.nFaces := rfl
  simp only [e1, e2]
  split
  · exact hab
  · refine forN_rel (fun (a a' : Option (Nat → ℝ)) => a' = a.map fun g k => s ^ 2 * g k) (m.nFaces v) _ _
      (fun i b b' hb => ?_) _ _ hab
    rw [hb]
    cases b with
    | none => rfl
    | some g => exact hst v i g

/-! ## Transmissibilities -/

section transmissibilities

open TDy.Mpfao

theorem wr2_grow (s : ℝ) (M : Nat → Nat → ℝ) (i j : Nat) (x : ℝ) :
    wr2 (fun a b => s * M a b) i j (s * x) = fun a b => s * wr2 M i j x a b := by
  funext a b
  simp only [wr2]
  split <;> rfl

theorem candF_grow (s : ℝ) (v : Vtx) : candF (growV s v) =
    ⟨fun a b => s * (candF v).Cup a b, fun a b => s * (candF v).Cdn a b,
      fun a b => s * (candF v).Fup a b, fun a b => s * (candF v).Fdn a b⟩ := by
  refine forN_rel (fun (a a' : CF) => a' = ⟨fun i j => s * a.Cup i j, fun i j => s * a.Cdn i j,
    fun i j => s * a.Fup i j, fun i j => s * a.Fdn i j⟩) v.npcen _ _ (fun i a a' hab =>
      forN_rel (fun (a a' : CF) => a' = ⟨fun i j => s * a.Cup i j, fun i j => s * a.Cdn i j,
        fun i j => s * a.Fup i j, fun i j => s * a.Fdn i j⟩) 3 _ _ (fun f b b' hb => ?_) _ _ hab) _ _ ?_
  · have hf : flux (growV s v) i f = flux v i f := rfl
    have hu : ∀ k, unk (growV s v) i k = unk v i k := fun _ => rfl
    have hup : ((growV s v).sub i).up = (v.sub i).up := rfl
    have hG : ∀ k, ((growV s v).sub i).G f k = s * (v.sub i).G f k := fun _ => rfl
    have hneg : ∀ x : ℝ, -(s * x) = s * (-x) := fun x => by ring
    have hsum : ∀ x y z : ℝ, s * (-x) - s * y - s * z = s * (-x - y - z) := fun x y z => by ring
    rw [hb]
    simp only [cfStep, hf, hu, hup, hG, hneg, hsum, wr2_grow]
    split <;> rfl
  · simp only [mul_zero]

theorem aEntry_grow (s : ℝ) (v : Vtx) (r c : Nat) : aEntry (growV s v) r c = s * aEntry v r c := by
  have e1 : nIn (growV s v) = nIn v := rfl
  have e2 : nNeuUp (growV s v) = nNeuUp v := rfl
  have e3 : nDirUp (growV s v) = nDirUp v := rfl
  have e4 : nDirDn (growV s v) = nDirDn v := rfl
  have e5 : colA (growV s v) = colA v := rfl
  simp only [aEntry, candF_grow, e1, e2, e3, e4, e5]
  split_ifs <;> ring

theorem bEntry_grow (s : ℝ) (v : Vtx) (r c : Nat) : bEntry (growV s v) r c = s * bEntry v r c := by
  have e1 : nIn (growV s v) = nIn v := rfl
  have e2 : nNeuUp (growV s v) = nNeuUp v := rfl
  have e3 : nDirUp (growV s v) = nDirUp v := rfl
  have e4 : nDirDn (growV s v) = nDirDn v := rfl
  have e5 : (growV s v).npcen = v.npcen := rfl
  simp only [bEntry, candF_grow, e1, e2, e3, e4, e5]
  split_ifs <;> ring

open Classical in
/-- `ainvB` for given matrices. -/
noncomputable def solved {n k : Nat} (A : Matrix (Fin n) (Fin n) ℝ) (B : Matrix (Fin n) (Fin k) ℝ) :
    Option (Matrix (Fin n) (Fin k) ℝ) :=
  if A.det = 0 then none else some (A⁻¹ * B)

theorem solved_grow {n k : Nat} {s : ℝ} (hs : s ≠ 0) (A : Matrix (Fin n) (Fin n) ℝ)
    (B : Matrix (Fin n) (Fin k) ℝ) :
    solved (fun r c => s * A r c) (fun r c => s * B r c) = solved A B := by
  change solved (s • A) (s • B) = _
  have hA : (s • A).det = s ^ n * A.det := by
    rw [Matrix.det_smul, Fintype.card_fin]
  unfold solved
  by_cases h0 : A.det = 0
  · rw [if_pos h0, if_pos (by rw [hA, h0, mul_zero])]
  · rw [if_neg h0, if_neg (by rw [hA]; exact mul_ne_zero (pow_ne_zero _ hs) h0)]
    congr 1
    have hi : (s • A)⁻¹ = s⁻¹ • A⁻¹ := by
      refine Matrix.inv_eq_left_inv ?_
      rw [Matrix.smul_mul, Matrix.mul_smul, smul_smul, inv_mul_cancel₀ hs, one_smul,
        Matrix.nonsing_inv_mul _ (isUnit_iff_ne_zero.2 h0)]
    rw [hi, Matrix.smul_mul, Matrix.mul_smul, smul_smul, inv_mul_cancel₀ hs, one_smul]

/-- `transEntry` for given sizes and matrices. -/
noncomputable def entryFor {n k : Nat} (nIn nDirUp npcen : Nat) (col : Nat → Nat) (M : CF)
    (X : Matrix (Fin n) (Fin k) ℝ) (i : Nat) (j : Fin k) : ℝ :=
  if i < nIn then
    (∑ c : Fin n, M.Cup i (col c) * X c j) +
      (if j.1 < npcen then -M.Fup i j else M.Cup i (nIn + (j - npcen)))
  else if i < nIn + nDirUp then
    (∑ c : Fin n, M.Cup i (col c) * X c j) +
      (if j.1 < npcen then -M.Fup i j else M.Cup i (nIn + (j - npcen)))
  else
    (∑ c : Fin n, M.Cdn (i - nDirUp) (col c) * X c j) +
      (if j.1 < npcen then -M.Fdn (i - nDirUp) j else M.Cdn (i - nDirUp) (nIn + (j - npcen)))

theorem entryFor_grow {n k : Nat} (s : ℝ) (a b p : Nat) (col : Nat → Nat) (M : CF)
    (X : Matrix (Fin n) (Fin k) ℝ) (i : Nat) (j : Fin k) :
    entryFor a b p col ⟨fun i j => s * M.Cup i j, fun i j => s * M.Cdn i j, fun i j => s * M.Fup i j,
      fun i j => s * M.Fdn i j⟩ X i j = s * entryFor a b p col M X i j := by
  simp only [entryFor, mul_assoc, ← Finset.mul_sum]
  split_ifs <;> ring

/-- Transmissibilities are multiplied by what the matrices of the subcells are multiplied by. -/
theorem C219_transmissibilities {s : ℝ} (hs : 0 < s) (v : Vtx) :
    trans (growV s v) = (trans v).map fun T i j => s * T i j := by
  have h1 : ∀ v : Vtx, trans v = (solved (n := nSys v) (k := v.npcen + nDir v) (fun r c => aEntry v r c)
      (fun r c => bEntry v r c)).map
        (entryFor (nIn v) (nDirUp v) v.npcen (colA v) (candF v)) := fun _ => rfl
  have h2 : trans (growV s v) = (solved (n := nSys v) (k := v.npcen + nDir v)
      (fun r c => aEntry (growV s v) r c) (fun r c => bEntry (growV s v) r c)).map
        (entryFor (nIn v) (nDirUp v) v.npcen (colA v) (candF (growV s v))) := h1 (growV s v)
  rw [h2, h1 v]
  simp only [aEntry_grow, bEntry_grow, candF_grow]
  rw [solved_grow hs.ne' (fun r c => aEntry v r c) (fun r c => bEntry v r c), Option.map_map]
  congr 1
  funext X i j
  exact entryFor_grow s _ _ _ _ _ X i j

end transmissibilities

end TDy.Geo.Props
