import Verif.Props.Turn
import Verif.Props.MpfaoTpfWitness

/-!
# C218: turned meshes in the MPFA-O method
-/

namespace TDy.Geo.Props

open TDy.Geo.Spec

/-! ## The tables of the subcells -/

section tables

variable (R : Rotation) (m : Subcells.Mesh)

theorem order_turn : Subcells.order (turnS R m) = Subcells.order m := by
  funext c s
  exact orientFaces_turn R m.fCen (m.cellCen c) (m.coord (m.cellVertex c s)) _

theorem turnedRes_bind {r r' : Res Subcells.Tables} {f f' : Subcells.Tables → Res Subcells.Tables}
    (h : TurnedRes R r r') (hf : ∀ t t', Turned R t t' → TurnedRes R (f t) (f' t')) :
    TurnedRes R (r.bind f) (r'.bind f') := by
  cases r <;> cases r' <;> first | exact hf _ _ h | exact h | exact absurd h id

theorem wr_turn {a a' : Nat → P3} (h : ∀ k, a' k = turn R (a k)) (i : Nat) (p : P3) (k : Nat) :
    wr a' i (turn R p) k = turn R (wr a i p k) := by
  by_cases hk : k = i
  · subst hk; rw [wr_same, wr_same]
  · rw [wr_other _ _ hk, wr_other _ _ hk, h]

theorem subfaceCen_turn (v f : Nat) (n : Nat × Nat) :
    Subcells.subfaceCen (turnS R m) v f n = turn R (Subcells.subfaceCen m v f n) := by
  have e : (2.0 : ℝ) = 2 := by norm_num
  have e4 : (4.0 : ℝ) = 4 := by norm_num
  ext <;> simp only [Subcells.subfaceCen, Subcells.mean, turnS, turn, e, e4] <;> ring

theorem writeFace_turn (c s i : Nat) (t t' : Subcells.Tables) (h : Turned R t t') :
    TurnedRes R (Subcells.writeFace m c s i t) (Subcells.writeFace (turnS R m) c s i t') := by
  have hn : Subcells.neighbours (turnS R m) = Subcells.neighbours m := rfl
  simp only [Subcells.writeFace, order_turn, hn, subfaceCen_turn]
  have hv : (turnS R m).cellVertex = m.cellVertex := rfl
  rw [hv]
  cases Subcells.neighbours m (Subcells.nth (Subcells.order m c s) i) (m.cellVertex c s) with
  | none => trivial
  | some n =>
    refine ⟨h.faceIds, h.vertexIds, ?_, ?_, h.T, ?_, h.faceCen⟩
    · change wr t'.faceArea _ _ = wr t.faceArea _ _
      rw [h.faceArea]; rfl
    · have e : Mpfao.nuVector (turnS R m).fCen ((turnS R m).cellCen c) (Subcells.order m c s)
          (Subcells.fin i) = _ := nuVector_turn R m.fCen (m.cellCen c) _ _
      intro k
      change wr t'.nu _ _ k = turn R (wr t.nu _ _ k)
      rw [e]
      exact wr_turn R h.nu _ _ k
    · intro k
      exact wr_turn R h.contin _ _ k

theorem setupSubcell_turn (c s : Nat) (t t' : Subcells.Tables) (h : Turned R t t') :
    TurnedRes R (Subcells.setupSubcell m c s t) (Subcells.setupSubcell (turnS R m) c s t') := by
  have hs : Subcells.sharedFaces (turnS R m) = Subcells.sharedFaces m := rfl
  have hv : (turnS R m).cellVertex = m.cellVertex := rfl
  have en : (turnS R m).nSub = m.nSub := rfl
  simp only [Subcells.setupSubcell, hs, hv]
  by_cases hc : (Subcells.sharedFaces m c (m.cellVertex c s)).num ≠ 3
  · rw [if_pos hc, if_pos hc]; trivial
  · rw [if_neg hc, if_neg hc]
    refine forN_rel (TurnedRes R) 3 _ _
      (fun i a b hab => turnedRes_bind R hab fun t t' ht => writeFace_turn R m c s i t t' ht) _ _ ?_
    have h1 := forN_rel (Turned R) 3 (fun k t => Subcells.writeIds m c s k t)
      (fun k t => Subcells.writeIds (turnS R m) c s k t)
      (fun k a b hab => ⟨by
          change wr b.faceIds _ _ = wr a.faceIds _ _
          rw [order_turn, hab.faceIds, en], by
          change wr b.vertexIds _ _ = wr a.vertexIds _ _
          rw [hab.vertexIds, hv, en], hab.faceArea, hab.nu, hab.T, hab.contin, hab.faceCen⟩) t t' h
    refine ⟨h1.faceIds, h1.vertexIds, h1.faceArea, h1.nu, ?_, h1.contin, h1.faceCen⟩
    have e : Mpfao.subcellT (turnS R m).fCen ((turnS R m).cellCen c)
        (Subcells.order (turnS R m) c s) = Mpfao.subcellT m.fCen (m.cellCen c)
        (Subcells.order m c s) := by
      rw [order_turn]; exact subcellT_turn R m.fCen (m.cellCen c) _
    change wr _ _ (Mpfao.subcellT (turnS R m).fCen ((turnS R m).cellCen c)
      (Subcells.order (turnS R m) c s)) = _
    rw [e, h1.T, en]

end tables

/-- The tables of the subcells are the same, but for the points and vectors in them, which turn along. -/
theorem C218_subcells (R : Rotation) (m : Subcells.Mesh) :
    TurnedRes R (Subcells.setup m) (Subcells.setup (turnS R m)) :=
  forN_rel (TurnedRes R) m.numCells _ _
    (fun c _ _ hab => forN_rel (TurnedRes R) m.nSub _ _
      (fun s _ _ hab => turnedRes_bind R hab fun t t' ht => setupSubcell_turn R m c s t t' ht)
      _ _ hab) _ _
    (show Turned R Subcells.allocated Subcells.allocated from
      ⟨rfl, rfl, rfl, fun _ => (zero_turn R).symm, rfl, fun _ => (zero_turn R).symm,
        fun _ => (zero_turn R).symm⟩)

/-! ## The two-point option and gravity -/

section grav

variable (R : Rotation) (m : Mpfao.GravCtx)

theorem sidePoint_turn (f : Nat) (id : ℤ) :
    Mpfao.sidePoint (turnG R m) f id = turn R (Mpfao.sidePoint m f id) :=
  ite_turn R _ _ _

theorem upDown_turn (f : Nat) : Mpfao.upDown (turnG R m) f = turn R (Mpfao.upDown m f) := by
  have e : (turnG R m).face = m.face := rfl
  simp only [Mpfao.upDown, unitJoin, sidePoint_turn, join_turn, unit_turn, e]

theorem wtUp_turn : Mpfao.wtUp (turnG R m) = Mpfao.wtUp m := by
  have h : Mpfao.sideDist (turnG R m) = Mpfao.sideDist m := by
    funext f id
    simp only [Mpfao.sideDist, turnG, join_turn, norm_turn]
  funext f
  simp only [Mpfao.wtUp, h]; rfl

theorem tpfPoint_turn (c f : Nat) :
    Mpfao.tpfPoint (turnG R m) c f = turn R (Mpfao.tpfPoint m c f) :=
  ite_turn R _ _ _

theorem tpfDist_turn : Mpfao.tpfDist (turnG R m) = Mpfao.tpfDist m := by
  funext c f
  have e : Mpfao.lengthOf (Mpfao.tpfPoint (turnG R m) c f) ((turnG R m).cellCen c) =
      Mpfao.lengthOf (Mpfao.tpfPoint m c f) (m.cellCen c) := by
    rw [tpfPoint_turn]; exact lengthOf_turn R _ _
  simp only [Mpfao.tpfDist, e]; rfl

theorem tpfDir_turn (c f : Nat) : Mpfao.tpfDir (turnG R m) c f = turn R (Mpfao.tpfDir m c f) := by
  have e : join (Mpfao.tpfPoint (turnG R m) c f) ((turnG R m).cellCen c) =
      turn R (join (Mpfao.tpfPoint m c f) (m.cellCen c)) := by
    rw [tpfPoint_turn]; exact join_turn R _ _
  simp only [Mpfao.tpfDir, unitJoin, e, unit_turn]

/-- A tensor, stored in nine numbers, that is `k` in all directions. -/
def Scalar (k : ℝ) (a : Nat → ℝ) : Prop :=
  a 0 = k ∧ a 1 = 0 ∧ a 2 = 0 ∧ a 3 = 0 ∧ a 4 = k ∧ a 5 = 0 ∧ a 6 = 0 ∧ a 7 = 0 ∧ a 8 = k

theorem scalar_extract {K0 : Nat → ℝ} (h : Isotropic K0) (c : Nat) :
    ∃ k, Scalar k (Mpfao.extractK K0 c) := by
  obtain ⟨k, hk⟩ := h
  refine ⟨k c, ?_⟩
  have e := fun i hi j hj => hk c i hi j hj
  refine ⟨?_, ?_, ?_, ?_, ?_, ?_, ?_, ?_, ?_⟩ <;> simp only [Mpfao.extractK]
  · simpa using e 0 (by decide) 0 (by decide)
  · simpa using e 1 (by decide) 0 (by decide)
  · simpa using e 2 (by decide) 0 (by decide)
  · simpa using e 0 (by decide) 1 (by decide)
  · simpa using e 1 (by decide) 1 (by decide)
  · simpa using e 2 (by decide) 1 (by decide)
  · simpa using e 0 (by decide) 2 (by decide)
  · simpa using e 1 (by decide) 2 (by decide)
  · simpa using e 2 (by decide) 2 (by decide)

theorem dirPerm_turn {k : ℝ} {a : Nat → ℝ} (h : Scalar k a) (u : P3) :
    Mpfao.dirPerm a (turn R u) = Mpfao.dirPerm a u := by
  have z : (0.0 : ℝ) = 0 := by norm_num
  have e : ∀ u : P3, Mpfao.dirPerm a u = 1.0 / (dot u u / k) := by
    intro u
    simp only [Mpfao.dirPerm, h.1, h.2.2.2.2.1, h.2.2.2.2.2.2.2.2, dot_e, z]
    congr 1
    ring
  rw [e, e, dot_turn]

theorem scalar_inverse {k : ℝ} {a : Nat → ℝ} (h : Scalar k a) :
    Scalar (1 / (k * (k * k)) * (k * k)) (computeInverse a).1 := by
  obtain ⟨h0, h1, h2, h3, h4, h5, h6, h7, h8⟩ := h
  have hd : det3 a = k * (k * k) := by
    simp only [det3, h0, h1, h2, h3, h4, h5, h6, h7, h8]; ring
  refine ⟨?_, ?_, ?_, ?_, ?_, ?_, ?_, ?_, ?_⟩ <;>
    simp [computeInverse, inv3, hd, h0, h1, h2, h3, h4, h5, h6, h7, h8]

theorem scalar_faceTensor (hK : Isotropic m.K0) (f : Nat) : ∃ k, Scalar k (Mpfao.faceTensor m f) := by
  obtain ⟨k1, h1⟩ := scalar_extract hK (Mpfao.permCell (m.face f).up (m.face f).dn)
  obtain ⟨k2, h2⟩ := scalar_extract hK (Mpfao.permCell (m.face f).dn (m.face f).up)
  have i1 := scalar_inverse h1
  have i2 := scalar_inverse h2
  have hf : ∃ k, Scalar k (Mpfao.faceInv m f) := by
    refine ⟨Mpfao.wtUp m f * (1 / (k1 * (k1 * k1)) * (k1 * k1)) +
      (1.0 - Mpfao.wtUp m f) * (1 / (k2 * (k2 * k2)) * (k2 * k2)), ?_⟩
    obtain ⟨a0, a1, a2, a3, a4, a5, a6, a7, a8⟩ := i1
    obtain ⟨b0, b1, b2, b3, b4, b5, b6, b7, b8⟩ := i2
    refine ⟨?_, ?_, ?_, ?_, ?_, ?_, ?_, ?_, ?_⟩ <;>
      simp only [Mpfao.faceInv, a0, a1, a2, a3, a4, a5, a6, a7, a8, b0, b1, b2, b3, b4, b5, b6, b7, b8,
        mul_zero, add_zero]
  obtain ⟨k, hk⟩ := hf
  obtain ⟨c0, c1, c2, c3, c4, c5, c6, c7, c8⟩ := scalar_inverse hk
  have z : (0.0 : ℝ) = 0 := by norm_num
  refine ⟨_, rfl, ?_, ?_, ?_, ?_, ?_, ?_, ?_, ?_⟩ <;>
    simp only [Mpfao.faceTensor, Mpfao.clipK, c0, c1, c2, c3, c4, c5, c6, c7, c8, z, ite_self]

theorem applyK_turn {k : ℝ} {a : Nat → ℝ} (h : Scalar k a) (u : P3) :
    Mpfao.applyK a (turn R u) = turn R (Mpfao.applyK a u) := by
  obtain ⟨h0, h1, h2, h3, h4, h5, h6, h7, h8⟩ := h
  have z : (0.0 : ℝ) = 0 := by norm_num
  ext <;> simp only [Mpfao.applyK, turn, h0, h1, h2, h3, h4, h5, h6, h7, h8, z] <;> ring

theorem permMPFAO_turn (hK : Isotropic m.K0) (f : Nat) :
    Mpfao.permMPFAO (turnG R m) f = Mpfao.permMPFAO m f := by
  obtain ⟨k, hk⟩ := scalar_faceTensor m hK f
  have e : Mpfao.faceTensor (turnG R m) f = Mpfao.faceTensor m f := by
    have : Mpfao.faceInv (turnG R m) f = Mpfao.faceInv m f := by
      funext n
      simp only [Mpfao.faceInv, wtUp_turn]; rfl
    simp only [Mpfao.faceTensor, this]
  have en : (turnG R m).normal f = turn R (m.normal f) := rfl
  simp only [Mpfao.permMPFAO, e, upDown_turn, applyK_turn R hk, en, dot_turn]

theorem permTPF_turn (hK : Isotropic m.K0) (f : Nat) :
    Mpfao.permTPF (turnG R m) f = Mpfao.permTPF m f := by
  obtain ⟨k1, h1⟩ := scalar_extract hK (Mpfao.permCell (m.face f).up (m.face f).dn)
  obtain ⟨k2, h2⟩ := scalar_extract hK (Mpfao.permCell (m.face f).dn (m.face f).up)
  have e1 : (turnG R m).K0 = m.K0 := rfl
  have e2 : (turnG R m).face = m.face := rfl
  simp only [Mpfao.permTPF, upDown_turn, wtUp_turn, e1, e2, dirPerm_turn R h1, dirPerm_turn R h2]

/-- What gravity contributes at a face, in the turned mesh and in the mesh: all that is left of the
difference is how gravity is multiplied with a direction. -/
theorem gravDis_turn (hK : Isotropic m.K0) (f : Nat) (a s : ℝ)
    (hs : Mpfao.gtimesZ (turn R m.gravity) (turn R (Mpfao.upDown m f)) =
      s * Mpfao.gtimesZ m.gravity (Mpfao.upDown m f)) :
    Mpfao.gravDis (turnG R m) f a = s * Mpfao.gravDis m f a := by
  have en : (turnG R m).normal f = turn R (m.normal f) := rfl
  have eg : (turnG R m).gravity = turn R m.gravity := rfl
  have et : (turnG R m).tpf = m.tpf := rfl
  simp only [Mpfao.gravDis, permTPF_turn R m hK, permMPFAO_turn R m hK, upDown_turn, en, eg, et, dot_turn,
    hs]
  split <;> ring

end grav

/-- The matrices of the subcells with the two-point option stay for isotropic tensors. -/
theorem C218_two_point_partial (R : Rotation) (m : Mpfao.GravCtx) (hK : Isotropic m.K0) (area : Nat → ℝ)
    (c : Nat) (face : Nat → Nat) : Mpfao.tpfG (turnG R m) area c face = Mpfao.tpfG m area c face := by
  funext i j
  obtain ⟨k1, h1⟩ := scalar_extract hK c
  obtain ⟨k2, h2⟩ := scalar_extract hK (Mpfao.tpfCell m c (face i))
  have e1 : (turnG R m).K0 = m.K0 := rfl
  have e2 : Mpfao.tpfCell (turnG R m) = Mpfao.tpfCell m := rfl
  have en : (turnG R m).normal (face i) = turn R (m.normal (face i)) := rfl
  simp only [Mpfao.tpfG, Mpfao.tpfEntry, Mpfao.tpfPerm, tpfDist_turn, tpfDir_turn, en, dot_turn, e1, e2,
    dirPerm_turn R h1, dirPerm_turn R h2]

/-- **C218, partial.**  For isotropic tensors and gravity along the vertical axis the gravity coefficients
stay under rotations about that axis.  Missing: other rotations, other tensors. -/
theorem C218_gravity_partial (R : Rotation) (h : R.Upright) (m : Mpfao.GravCtx) (hK : Isotropic m.K0)
    (hx : m.gravity.x = 0) (hy : m.gravity.y = 0) (g : Nat → ℝ) :
    Mpfao.gravity (turnG R m) g = Mpfao.gravity m g := by
  obtain ⟨h1, h2, h3, h4, h5⟩ := upright_entries R h
  have z : (0.0 : ℝ) = 0 := by norm_num
  have hd : Mpfao.gravDis (turnG R m) = Mpfao.gravDis m := by
    funext f a
    rw [gravDis_turn R m hK f a 1, one_mul]
    simp [Mpfao.gtimesZ, turn, hx, hy, h1, h2, h3, h4, h5, z]
  have hs : Mpfao.gravStep (turnG R m) = Mpfao.gravStep m := by
    funext v i g
    simp only [Mpfao.gravStep, hd]; rfl
  simp only [Mpfao.gravity, hs]; rfl

/-- **C218 (negative).**  Turned upside down together with gravity, a mesh has the opposite gravity
coefficients: the signs of gravity are dropped. -/
theorem C218_upside_down (m : Mpfao.GravCtx) (hK : Isotropic m.K0) (hx : m.gravity.x = 0)
    (hy : m.gravity.y = 0) (f : Nat) (a : ℝ) :
    Mpfao.gravDis (turnG overturn m) f a = - Mpfao.gravDis m f a := by
  have z : (0.0 : ℝ) = 0 := by norm_num
  rw [gravDis_turn overturn m hK f a (-1), neg_one_mul]
  simp [Mpfao.gtimesZ, turn, overturn, hx, hy, z]

/-- **C218 (negative).**  With the two-point option the coefficients of heat at faces whose normal is
horizontal change their sign when the mesh is turned about, whatever the isotropic conductivity. -/
theorem C218_turned_heat (m : Mpfao.GravCtx) (Kappa0 area : Nat → ℝ) (hK : Isotropic Kappa0) (c : Nat)
    (face : Nat → Nat) (T : ℝ) (i : Nat) (hn : (m.normal (face i)).z = 0) :
    Mpfao.tpfTempG (turnG aboutFace m) Kappa0 area c face T i i =
      - Mpfao.tpfTempG m Kappa0 area c face T i i := by
  obtain ⟨k, hk⟩ := hK
  have z : (0.0 : ℝ) = 0 := by norm_num
  have e : ∀ a b : Fin 3, Kappa0 (c*9 + a*3 + b) = if a = b then k c else 0 := by
    intro a b
    rw [hk c a a.isLt b b.isLt]
    simp only [Fin.ext_iff]
  have en : (turnG aboutFace m).normal (face i) = turn aboutFace (m.normal (face i)) := rfl
  simp only [Mpfao.tpfTempG, Mpfao.nuStar, tpfDist_turn, tpfDir_turn, en, dot_turn, if_true]
  have key : ∀ (A o T t : ℝ) (n : P3), n.z = 0 →
      Mpfao.entryOfG A (turn aboutFace n) (fun a b => Kappa0 (c*9 + a*3 + b)) ⟨t, t, t⟩ T =
        - Mpfao.entryOfG A n (fun a b => Kappa0 (c*9 + a*3 + b)) ⟨t, t, t⟩ T := by
    intro A o T t n hz
    simp only [Mpfao.entryOfG, e, z]
    generalize (1.0 / T * A) = q
    simp [turn, aboutFace, hz]
    ring
  exact key _ 0 _ _ _ hn

theorem stack_isotropic : Isotropic (Mpfao.Props.TpfWitness.stack Mpfao.Props.TpfWitness.k13).K0 := by
  refine ⟨Mpfao.Props.TpfWitness.k13, fun c i hi j hj => ?_⟩
  have h := congrFun (congrFun (Mpfao.Props.TpfWitness.tensor_eq
    (fun f => Mpfao.Props.TpfWitness.swap (Mpfao.Props.Witness.fc f))
    (fun c => Mpfao.Props.TpfWitness.swap (Mpfao.Props.Witness.cen c))
    (fun f => Mpfao.Props.TpfWitness.swap (Mpfao.Props.Witness.normal f))
    (Mpfao.Props.TpfWitness.iso Mpfao.Props.TpfWitness.k13) true c) ⟨i, hi⟩) ⟨j, hj⟩
  have e : Mpfao.Props.TpfWitness.iso Mpfao.Props.TpfWitness.k13 c ⟨i, hi⟩ ⟨j, hj⟩ =
      if i = j then Mpfao.Props.TpfWitness.k13 c else 0 := by
    simp [Mpfao.Props.TpfWitness.iso]
  rw [← e, ← h]
  rfl

/-- Cubes on top of each other, turned about the vertical axis and tilted. -/
example (g : Nat → ℝ) : Mpfao.gravity (turnG aboutFace (Mpfao.Props.TpfWitness.stack
    Mpfao.Props.TpfWitness.k13)) g = Mpfao.gravity (Mpfao.Props.TpfWitness.stack
    Mpfao.Props.TpfWitness.k13) g := C218_gravity_partial aboutFace (by rfl) _ stack_isotropic rfl rfl g

example (area : Nat → ℝ) : Mpfao.tpfG (turnG tilt (Mpfao.Props.TpfWitness.stack
    Mpfao.Props.TpfWitness.k13)) area 0 id = Mpfao.tpfG (Mpfao.Props.TpfWitness.stack
    Mpfao.Props.TpfWitness.k13) area 0 id := C218_two_point_partial _ _ stack_isotropic area 0 id

/-- **C218 violated.**  Two cubes on top of each other, of permeabilities 1 and 3, with gravity downwards
along their column: turned by half a turn about a horizontal axis, gravity included, they have another
gravity coefficient. -/
theorem C218_gravity_violated : ∃ (R : Rotation) (m : Mpfao.GravCtx), Isotropic m.K0 ∧
    ∀ a, a ≠ 0 → Mpfao.gravDis (turnG R m) 0 a ≠ Mpfao.gravDis m 0 a := by
  refine ⟨overturn, Mpfao.Props.TpfWitness.stack Mpfao.Props.TpfWitness.k13, stack_isotropic,
    fun a ha h => ?_⟩
  rw [C218_upside_down _ stack_isotropic rfl rfl] at h
  have hz : Mpfao.gravDis (Mpfao.Props.TpfWitness.stack Mpfao.Props.TpfWitness.k13) 0 a = 0 := by linarith
  have u : Mpfao.upDown (Mpfao.Props.TpfWitness.stack Mpfao.Props.TpfWitness.k13) 0 = ⟨0, 0, 1⟩ :=
    Mpfao.Props.TpfWitness.direction_stack _
  simp only [Mpfao.gravDis, u, Mpfao.Props.TpfWitness.perm_stack] at hz
  norm_num [Mpfao.Props.TpfWitness.stack, Mpfao.Props.TpfWitness.ctx, Mpfao.gtimesZ, Geo.dot,
    Mpfao.Props.TpfWitness.swap, Mpfao.Props.Witness.normal, ha] at hz

theorem kap1_isotropic : Isotropic Mpfao.Props.TpfWitness.kap1 := by
  refine ⟨fun _ => 1, fun c i hi j hj => ?_⟩
  have h := Mpfao.Props.TpfWitness.kap1_iso c ⟨i, hi⟩ ⟨j, hj⟩
  simpa [Mpfao.Spec.kappa] using h

/-- **C218 violated.**  With the two-point option two cubes side by side, of conductivity 1, exchange heat
with the opposite sign when they are turned about. -/
theorem C218_heat_violated : ∃ (R : Rotation) (m : Mpfao.GravCtx) (Kappa0 : Nat → ℝ), R.Upright ∧
    Isotropic Kappa0 ∧ ∀ (area : Nat → ℝ) (T : ℝ), area 0 ≠ 0 → T ≠ 0 →
      Mpfao.tpfTempG (turnG R m) Kappa0 area 0 (fun i => i) T 0 0 ≠
        Mpfao.tpfTempG m Kappa0 area 0 (fun i => i) T 0 0 := by
  refine ⟨aboutFace, Mpfao.Props.TpfWitness.pair (fun _ => 1), Mpfao.Props.TpfWitness.kap1, rfl,
    kap1_isotropic, fun area T ha hT h => ?_⟩
  rw [C218_turned_heat _ _ _ kap1_isotropic 0 (fun i => i) T 0
    (by simp [Mpfao.Props.TpfWitness.pair, Mpfao.Props.TpfWitness.ctx, Mpfao.Props.Witness.normal])] at h
  have hz : Mpfao.tpfTempG (Mpfao.Props.TpfWitness.pair (fun _ => 1)) Mpfao.Props.TpfWitness.kap1 area 0
      (fun i => i) T 0 0 = 0 := by linarith
  have o : Mpfao.tpfOther (Mpfao.Props.TpfWitness.pair (fun _ => 1)) 0 0 = 1 := rfl
  have p : Mpfao.tpfPoint (Mpfao.Props.TpfWitness.pair (fun _ => 1)) 0 0 = ⟨3/2, 1/2, 1/2⟩ := by
    simp only [Mpfao.tpfPoint, o]
    simp [Mpfao.Props.TpfWitness.pair, Mpfao.Props.TpfWitness.ctx,
      Mpfao.Props.Witness.cen]
  have c0 : (Mpfao.Props.TpfWitness.pair (fun _ => 1)).cellCen 0 = ⟨1/2, 1/2, 1/2⟩ := by
    simp [Mpfao.Props.TpfWitness.pair, Mpfao.Props.TpfWitness.ctx, Mpfao.Props.Witness.cen]
  have n0 : (Mpfao.Props.TpfWitness.pair (fun _ => 1)).normal 0 = ⟨1, 0, 0⟩ := by
    simp [Mpfao.Props.TpfWitness.pair, Mpfao.Props.TpfWitness.ctx, Mpfao.Props.Witness.normal]
  have d : Mpfao.tpfDir (Mpfao.Props.TpfWitness.pair (fun _ => 1)) 0 0 = ⟨-1, 0, 0⟩ := by
    simp only [Mpfao.tpfDir, p, c0, Geo.unitJoin, Geo.unit, Geo.join, Geo.norm]
    norm_num
  have l : Mpfao.tpfDist (Mpfao.Props.TpfWitness.pair (fun _ => 1)) 0 0 = 1/2 := by
    simp only [Mpfao.tpfDist, o, p, c0, Mpfao.lengthOf]
    norm_num
  simp only [Mpfao.tpfTempG, if_true, Mpfao.nuStar, d, l, n0, Mpfao.entryOfG, Geo.dot,
    Mpfao.Props.TpfWitness.kap1] at hz
  norm_num [ha, hT] at hz

/-! ## Tilted meshes -/

/-- **C218 violated.**  Eight cubes are set up; tilted, they are not: the set up runs into undefined
behaviour. -/
theorem C218_tilted_violated : (∃ r, Traverse.setupTraversal Traverse.Cube.cube = .ok r) ∧
    Traverse.setupTraversal (turnT tilt Traverse.Cube.cube) = .ub := by
  refine ⟨?_, ?_⟩
  · obtain ⟨r, h, _⟩ := Traverse.Props.C140_mesh Traverse.Cube.columnar
    exact ⟨r, h⟩
  · refine Traverse.Props.C141_violated_code_as_index (c := 0) (by decide) (by decide) rfl rfl ?_
    intro c hc w hw hne hp
    have hc0 : c = 0 := by simpa [turnT, Traverse.Cube.cube, Traverse.Cube.vCellsT] using hc
    subst hc0
    have hw' : w ∈ [0, 1, 3, 4, 9, 10, 12, 13] := hw
    simp only [Traverse.Spec.Plumb, turnT, Traverse.Cube.cube, turn, tilt] at hp
    simp only [List.mem_cons, List.not_mem_nil, or_false] at hw'
    rcases hw' with rfl | rfl | rfl | rfl | rfl | rfl | rfl | rfl
    · exact hne rfl
    all_goals
      simp [Traverse.Cube.xs, Traverse.Cube.ys, Traverse.Cube.zs, Traverse.Cube.vxyz] at hp
      norm_num at hp

end TDy.Geo.Props
