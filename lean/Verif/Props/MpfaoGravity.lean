import Verif.Spec.MpfaoGravity
import Verif.Props.Geometry

/-!
# Face permeability and gravity coefficients: C58, C59
-/

namespace TDy.Mpfao.Props

open TDy TDy.Mpfao TDy.Mpfao.Spec

theorem sideDist_eq (m : GravCtx) (f : Nat) (id : ℤ) : sideDist m f id = sideDistance m f id := by
  unfold sideDist sideDistance
  split_ifs
  · simp only [Geo.norm, Geo.join]
    congr 1
    ring
  · norm_num

theorem wtUp_eq (m : GravCtx) (f : Nat) : wtUp m f = weight m f := by
  simp only [wtUp, weight, sideDist_eq]

theorem permCell_joins {m : GravCtx} {f up dn : Nat} (h : Joins m f up dn) :
    permCell (m.face f).up (m.face f).dn = up ∧ permCell (m.face f).dn (m.face f).up = dn := by
  unfold permCell
  rcases h with ⟨a, b⟩ | ⟨a, b, e⟩ | ⟨a, b, e⟩
  · rw [a, b]; simp
  · rw [if_neg (by omega : ¬ 0 ≤ (m.face f).dn), a]; simp [e]
  · rw [if_neg (by omega : ¬ 0 ≤ (m.face f).up), b]; simp [e]

theorem extractK_matrix (m : GravCtx) (c : Nat) :
    Geo.Spec.matrix (extractK m.K0 c) = (tensor m c).transpose := by
  ext i j
  fin_cases i <;> fin_cases j <;> simp [Geo.Spec.matrix, extractK, tensor, Matrix.transpose]

theorem inv_matrix (a : Nat → ℝ) (h : (Geo.Spec.matrix a).det ≠ 0) :
    Geo.Spec.matrix (Geo.computeInverse a).1 = (Geo.Spec.matrix a)⁻¹ :=
  (Matrix.inv_eq_left_inv (Geo.Props.C32_inverse a h).1).symm

theorem faceInv_matrix {m : GravCtx} {f up dn : Nat} (h : Joins m f up dn)
    (hu : (tensor m up).PosDef) (hd : (tensor m dn).PosDef) :
    Geo.Spec.matrix (faceInv m f) =
      weight m f • (tensor m up)⁻¹ + (1 - weight m f) • (tensor m dn)⁻¹ := by
  have e : ∀ c, (tensor m c).PosDef → Geo.Spec.matrix (Geo.computeInverse (extractK m.K0 c)).1
      = (tensor m c)⁻¹ := by
    intro c hc
    have t : (tensor m c).transpose = tensor m c := by
      have := hc.1.eq
      rwa [Matrix.conjTranspose_eq_transpose_of_trivial] at this
    rw [inv_matrix, extractK_matrix, t]
    rw [extractK_matrix, t]
    exact ((Matrix.isUnit_iff_isUnit_det _).1 hc.isUnit).ne_zero
  rw [← e up hu, ← e dn hd]
  obtain ⟨p, q⟩ := permCell_joins h
  ext i j
  simp only [Geo.Spec.matrix, faceInv, p, q, wtUp_eq, Matrix.of_apply, Matrix.add_apply,
    Matrix.smul_apply, smul_eq_mul]
  norm_num


theorem sideDistance_nonneg (m : GravCtx) (f : Nat) (id : ℤ) : 0 ≤ sideDistance m f id := by
  unfold sideDistance
  split_ifs
  · exact Real.sqrt_nonneg _
  · exact le_refl _

/-- The mean of the inverses of two positive definite tensors is invertible. -/
theorem mean_posDef {m : GravCtx} {f up dn : Nat}
    (hu : (tensor m up).PosDef) (hd : (tensor m dn).PosDef)
    (apart : 0 < sideDistance m f (m.face f).up + sideDistance m f (m.face f).dn) :
    (weight m f • (tensor m up)⁻¹ + (1 - weight m f) • (tensor m dn)⁻¹).PosDef := by
  have h0 := sideDistance_nonneg m f (m.face f).up
  have h1 := sideDistance_nonneg m f (m.face f).dn
  have w0 : 0 ≤ weight m f := div_nonneg h0 apart.le
  have w1 : weight m f ≤ 1 := by
    unfold weight; rw [div_le_one apart]; linarith
  rcases w0.eq_or_lt with e | lt
  · rw [← e]; simpa using hd.inv
  · rcases w1.eq_or_lt with e | lt1
    · rw [e]; simpa using hu.inv
    · exact (hu.inv.smul lt).add (hd.inv.smul (by linarith : 0 < 1 - weight m f))

/-- **C58**: every entry of the tensor used at a face is the entry of the distance-weighted harmonic
mean of the tensors of its two cells, except that negative and small entries are replaced by 0. -/
theorem C58_entries {m : GravCtx} {f up dn : Nat} (h : Joins m f up dn)
    (hu : (tensor m up).PosDef) (hd : (tensor m dn).PosDef)
    (apart : 0 < sideDistance m f (m.face f).up + sideDistance m f (m.face f).dn) (i j : Fin 3) :
    faceTensor m f (3*i + j) =
      if meanTensor m f up dn i j < 0 ∨ |meanTensor m f up dn i j| < Geo.machineEps then 0
      else meanTensor m f up dn i j := by
  have pd := mean_posDef (f := f) hu hd apart
  have e : Geo.Spec.matrix (Geo.computeInverse (faceInv m f)).1 = meanTensor m f up dn := by
    rw [inv_matrix, faceInv_matrix h hu hd]
    · rfl
    · rw [faceInv_matrix h hu hd]
      exact ((Matrix.isUnit_iff_isUnit_det _).1 pd.isUnit).ne_zero
  have e' : (Geo.computeInverse (faceInv m f)).1 (3*i + j) = meanTensor m f up dn i j := by
    rw [← e]; rfl
  unfold faceTensor clipK
  rw [e']
  norm_num

/-- **C58**, the tensor is the harmonic mean: proved when no entry of the mean is negative or
positive but below machine epsilon.  Missing: tensors with negative entries (`C58_negative_lost`) and
permeabilities below 2.2e-16 (`C58_low_permeability_lost`). -/
theorem C58_tensor_partial {m : GravCtx} {f up dn : Nat} (h : Joins m f up dn)
    (hu : (tensor m up).PosDef) (hd : (tensor m dn).PosDef)
    (apart : 0 < sideDistance m f (m.face f).up + sideDistance m f (m.face f).dn)
    (large : ∀ i j, meanTensor m f up dn i j = 0 ∨ Geo.machineEps ≤ meanTensor m f up dn i j) :
    Geo.Spec.matrix (faceTensor m f) = meanTensor m f up dn := by
  ext i j
  have := C58_entries h hu hd apart i j
  change faceTensor m f (3*i + j) = _
  rw [this]
  have eps : 0 < Geo.machineEps := by unfold Geo.machineEps; norm_num
  rcases large i j with z | g
  · rw [z]; simp
  · rw [if_neg]
    rintro (n | n)
    · linarith
    · rw [abs_of_nonneg (by linarith)] at n; linarith

/-- With the same tensor on both sides (always so on the boundary) the mean is that tensor. -/
theorem C58_same {m : GravCtx} {f up dn : Nat} (hu : (tensor m up).PosDef)
    (same : tensor m dn = tensor m up) : meanTensor m f up dn = tensor m up := by
  unfold meanTensor
  rw [same, ← add_smul, add_sub_cancel, one_smul]
  exact Matrix.nonsing_inv_nonsing_inv _ ((Matrix.isUnit_iff_isUnit_det _).1 hu.isUnit)

/-- **C58**, two-point flux method: the scalar used at a face is the distance-weighted harmonic mean
of the two directional permeabilities `1 / Σ u²/K`. -/
theorem C58_two_point {m : GravCtx} {f up dn : Nat} (h : Joins m f up dn)
    (pos : ∀ c, c = up ∨ c = dn → ∀ i, 0 < tensor m c i i)
    (apart : sidePoint m f (m.face f).up ≠ sidePoint m f (m.face f).dn)
    (u : Geo.P3) (hu : u = upDown m f) :
    permTPF m f = 1 / (weight m f * (u.x^2 / tensor m up 0 0 + u.y^2 / tensor m up 1 1 +
        u.z^2 / tensor m up 2 2) +
      (1 - weight m f) * (u.x^2 / tensor m dn 0 0 + u.y^2 / tensor m dn 1 1 +
        u.z^2 / tensor m dn 2 2)) := by
  obtain ⟨p, q⟩ := permCell_joins h
  have upos : 0 < u.x^2 + u.y^2 + u.z^2 := by
    rw [hu]
    simp only [upDown, Geo.unitJoin, Geo.unit]
    set d := Geo.join (sidePoint m f (m.face f).up) (sidePoint m f (m.face f).dn) with hd
    have nz : 0 < d.x^2 + d.y^2 + d.z^2 := by
      by_contra hc
      have hx : d.x = 0 := by nlinarith [sq_nonneg d.x, sq_nonneg d.y, sq_nonneg d.z]
      have hy : d.y = 0 := by nlinarith [sq_nonneg d.x, sq_nonneg d.y, sq_nonneg d.z]
      have hz : d.z = 0 := by nlinarith [sq_nonneg d.x, sq_nonneg d.y, sq_nonneg d.z]
      apply apart
      simp only [hd, Geo.join] at hx hy hz
      ext <;> linarith
    have np : 0 < Geo.norm d := by
      unfold Geo.norm; apply Real.sqrt_pos.2; nlinarith
    have : (d.x / Geo.norm d)^2 + (d.y / Geo.norm d)^2 + (d.z / Geo.norm d)^2
        = (d.x^2 + d.y^2 + d.z^2) / (Geo.norm d)^2 := by field_simp
    rw [this]; positivity
  have key : ∀ c, c = up ∨ c = dn → dirPerm (extractK m.K0 c) u =
      1 / (u.x^2 / tensor m c 0 0 + u.y^2 / tensor m c 1 1 + u.z^2 / tensor m c 2 2) ∧
      0 < u.x^2 / tensor m c 0 0 + u.y^2 / tensor m c 1 1 + u.z^2 / tensor m c 2 2 := by
    intro c hc
    have k := pos c hc
    constructor
    · simp [dirPerm, extractK, tensor]; norm_num
    · have h0 := k 0
      have h1 := k 1
      have h2 := k 2
      by_contra hn
      have a0 : 0 ≤ u.x^2 / tensor m c 0 0 := by positivity
      have a1 : 0 ≤ u.y^2 / tensor m c 1 1 := by positivity
      have a2 : 0 ≤ u.z^2 / tensor m c 2 2 := by positivity
      have b0 : u.x^2 / tensor m c 0 0 = 0 := by linarith
      have b1 : u.y^2 / tensor m c 1 1 = 0 := by linarith
      have b2 : u.z^2 / tensor m c 2 2 = 0 := by linarith
      rw [div_eq_zero_iff] at b0 b1 b2
      have c0 := b0.resolve_right h0.ne'
      have c1 := b1.resolve_right h1.ne'
      have c2 := b2.resolve_right h2.ne'
      linarith
  obtain ⟨e1, p1⟩ := key up (.inl rfl)
  obtain ⟨e2, p2⟩ := key dn (.inr rfl)
  unfold permTPF
  simp only [p, q, ← hu, e1, e2, wtUp_eq]
  set A := u.x^2 / tensor m up 0 0 + u.y^2 / tensor m up 1 1 + u.z^2 / tensor m up 2 2
  set B := u.x^2 / tensor m dn 0 0 + u.y^2 / tensor m dn 1 1 + u.z^2 / tensor m dn 2 2
  rw [show (1.0:ℝ) = 1 by norm_num]
  have : weight m f * (1 / B) + (1 - weight m f) * (1 / A) =
      (weight m f * A + (1 - weight m f) * B) / (A * B) := by field_simp; try ring
  rw [this]
  by_cases z : weight m f * A + (1 - weight m f) * B = 0
  · rw [z]; simp
  · field_simp


/-! ## C59 -/

/-- A loop whose `s`-th iteration writes the block `[b + s*w, b + s*w + w)`. -/
theorem forN_blocks {α : Type} (n w b : Nat) (hw : 0 < w) (F : Nat → (Nat → α) → Nat → α)
    (g : Nat → Nat → α)
    (hF : ∀ s a k, F s a k = if b + s*w ≤ k ∧ k < b + s*w + w then g s k else a k)
    (a : Nat → α) (k : Nat) :
    forN n F a k = if b ≤ k ∧ k < b + n*w then g ((k - b)/w) k else a k := by
  induction n with
  | zero => rw [if_neg (by omega)]; rfl
  | succ n ih =>
    simp only [forN]
    rw [hF, ih]
    by_cases h1 : b + n*w ≤ k ∧ k < b + n*w + w
    · rw [if_pos h1, if_pos ⟨by omega, by rw [Nat.add_mul]; omega⟩]
      congr 1
      symm
      rw [Nat.div_eq_iff hw]
      rw [Nat.mul_comm] at h1
      constructor <;> [skip; skip] <;> simp only [Nat.mul_comm n w] at * <;> omega
    · rw [if_neg h1]
      by_cases h2 : b ≤ k ∧ k < b + n*w
      · rw [if_pos h2, if_pos ⟨h2.1, by rw [Nat.add_mul]; omega⟩]
      · rw [if_neg h2, if_neg]
        rintro ⟨x, y⟩
        rw [Nat.add_mul] at y
        omega

theorem subTable_flat {α : Type} (m : GravCtx) (init : α) (v : Nat → Nat → Nat → α)
    {c s d : Nat} (hc : c < m.numCells) (hs : s < m.nSub) (hd : d < 3) :
    subTable m init v (flat m c s d) = v c s d := by
  have in3 : ∀ c s a k, forN 3 (fun d a => wr a (flat m c s d) (v c s d)) a k =
      if c*m.nSub*3 + s*3 ≤ k ∧ k < c*m.nSub*3 + s*3 + 3 then v c s (k - (c*m.nSub*3 + s*3)) else a k := by
    intro c s a k
    have e : ∀ d, flat m c s d = c*m.nSub*3 + s*3 + d := by
      intro d; unfold flat; ring
    simp only [forN, wr, e]
    by_cases h2 : k = c*m.nSub*3 + s*3 + 2
    · rw [if_pos h2, if_pos (by omega)]; congr 1; omega
    · rw [if_neg h2]
      by_cases h1 : k = c*m.nSub*3 + s*3 + 1
      · rw [if_pos h1, if_pos (by omega)]; congr 1; omega
      · rw [if_neg h1]
        by_cases h0 : k = c*m.nSub*3 + s*3 + 0
        · rw [if_pos h0, if_pos (by omega)]; congr 1; omega
        · rw [if_neg h0, if_neg (by omega)]
  have mid : ∀ c a k, forN m.nSub (fun s a => forN 3 (fun d a => wr a (flat m c s d) (v c s d)) a) a k
      = if c*m.nSub*3 ≤ k ∧ k < c*m.nSub*3 + m.nSub*3 then
          v c ((k - c*m.nSub*3)/3) (k - (c*m.nSub*3 + (k - c*m.nSub*3)/3*3)) else a k := by
    intro c a k
    exact forN_blocks m.nSub 3 (c*m.nSub*3) (by omega) _
      (fun s k => v c s (k - (c*m.nSub*3 + s*3))) (fun s a k => in3 c s a k) a k
  unfold subTable
  rw [forN_blocks m.numCells (m.nSub*3) 0 (by omega) _
    (fun c k => v c ((k - c*m.nSub*3)/3) (k - (c*m.nSub*3 + (k - c*m.nSub*3)/3*3)))
    (fun c a k => by rw [mid]; simp only [Nat.zero_add, Nat.mul_assoc])]
  have fl : flat m c s d = c*(m.nSub*3) + (s*3 + d) := by unfold flat; ring
  have lt : s*3 + d < m.nSub*3 := by omega
  have dv : (flat m c s d - 0)/(m.nSub*3) = c := by
    rw [Nat.sub_zero, fl, Nat.mul_comm c, Nat.mul_add_div (by omega), Nat.div_eq_of_lt lt]; rfl
  rw [if_pos, dv]
  · have : flat m c s d - c*m.nSub*3 = s*3 + d := by
      rw [fl, ← Nat.mul_assoc]; omega
    rw [this]
    have e1 : (s*3 + d)/3 = s := by omega
    rw [e1]
    congr 1
    rw [fl, ← Nat.mul_assoc]; omega
  · refine ⟨by omega, ?_⟩
    rw [fl]
    have : (c + 1)*(m.nSub*3) ≤ m.numCells*(m.nSub*3) := Nat.mul_le_mul_right _ hc
    rw [Nat.add_mul] at this
    omega

/-- The lookup finds a subface of the given face at the given vertex. -/
theorem findSub_spec {m : GravCtx} {c v f : Nat} (hc : c < m.numCells)
    (h : ∃ s d, s < m.nSub ∧ d < 3 ∧ m.cellVertex c s = v ∧ m.cellFace c s d = f) :
    ∃ s d, s < m.nSub ∧ d < 3 ∧ m.cellVertex c s = v ∧ m.cellFace c s d = f ∧
      findSub m c v f = some (flat m c s d) := by
  have dec : ∀ k, k < m.nSub*3 → c*(m.nSub*3) + k = flat m c (k/3) (k%3) := by
    intro k _
    unfold flat
    rw [Nat.add_mul, Nat.mul_assoc]; omega
  obtain ⟨s, d, hs, hd, hv, hf⟩ := h
  unfold findSub
  have ex : ∃ k, (List.range (m.nSub*3)).find? (fun k =>
      faceIds m (c*(m.nSub*3) + k) == f && vertexIds m (c*(m.nSub*3) + k) == v) = some k := by
    rw [← Option.isSome_iff_exists, List.find?_isSome]
    refine ⟨s*3 + d, List.mem_range.2 (by omega), ?_⟩
    rw [dec _ (by omega), show (s*3+d)/3 = s by omega, show (s*3+d)%3 = d by omega]
    unfold faceIds vertexIds
    rw [subTable_flat m _ _ hc hs hd, subTable_flat m _ _ hc hs hd]
    simp [hv, hf]
  obtain ⟨k, hk⟩ := ex
  have hlt := List.mem_range.1 (List.mem_of_find?_eq_some hk)
  have hp := List.find?_some hk
  rw [dec k hlt] at hp
  have h1 : k/3 < m.nSub := by omega
  have h2 : k%3 < 3 := by omega
  unfold faceIds vertexIds at hp
  rw [subTable_flat m _ _ hc h1 h2, subTable_flat m _ _ hc h1 h2] at hp
  simp at hp
  refine ⟨k/3, k%3, h1, h2, hp.2, hp.1, ?_⟩
  rw [hk, ← dec k hlt]; rfl

/-- A subface for which the code stores a coefficient. -/
def HasGravity (m : GravCtx) (v i : Nat) : Prop :=
  v < m.numVertices ∧ m.vLocal v = true ∧ i < m.nFaces v ∧ (m.face (m.vFace v i)).isLocal = true ∧
    ¬ (m.neumann = true ∧ ((m.face (m.vFace v i)).up < 0 ∨ (m.face (m.vFace v i)).dn < 0))

open Classical in
/-- One step of the loop, for a mesh as it is built: it never fails. -/
theorem gravStep_eq {m : GravCtx} (ok : MeshOk m) (v i : Nat) (hv : v < m.numVertices)
    (loc : m.vLocal v = true) (hi : i < m.nFaces v) (g : Nat → ℝ) :
    gravStep m v i g = some (if HasGravity m v i then
      wr g (m.vFace v i*4 + m.vSub v i)
        (gravDis m (m.vFace v i) (m.area (m.vFace v i)/m.faceVerts (m.vFace v i)))
      else g) := by
  unfold gravStep HasGravity
  by_cases hl : (m.face (m.vFace v i)).isLocal = true
  · by_cases hn : m.neumann = true ∧ ((m.face (m.vFace v i)).up < 0 ∨ (m.face (m.vFace v i)).dn < 0)
    · simp [hl, hn]
    · have inc := ok.incident v i hi
      have hcell : ∃ c : Nat, (if (m.face (m.vFace v i)).up < 0 then (m.face (m.vFace v i)).dn.toNat
          else (m.face (m.vFace v i)).up.toNat) = c ∧
          ((m.face (m.vFace v i)).up = c ∨ (m.face (m.vFace v i)).dn = c) := by
        refine ⟨_, rfl, ?_⟩
        split_ifs <;> omega
      obtain ⟨c, ec, inc'⟩ := hcell
      obtain ⟨hc, ex⟩ := ok.cell v i c hi inc'
      obtain ⟨s, d, hs, hd, hvx, hfx, hfind⟩ := findSub_spec hc ex
      have hc' : hasCell m (m.vFace v i) = true := by
        unfold hasCell; simpa using inc
      dsimp only
      rw [hl, ec, hfind, if_neg (by simp), if_neg hn]
      simp only [Option.bind_some, hc', if_true]
      rw [if_pos ⟨hv, loc, hi, trivial, hn⟩]
      unfold subArea
      rw [subTable_flat m _ _ hc hs hd, hfx]
  · have hl' : (m.face (m.vFace v i)).isLocal = false := by simpa using hl
    simp [hl']

theorem gravDis_eq (m : GravCtx) (f : Nat) (A : ℝ) : gravDis m f A = coefficient m f A := by
  unfold gravDis coefficient permMPFAO Geo.dot applyK gtimesZ
  cases m.tpf
  · simp [Geo.Spec.matrix, Matrix.mulVec, dotProduct, Fin.sum_univ_three]
    norm_num
  · simp only [if_true]
    norm_num
    left
    ring

/-- **C59**: the coefficient stored for a subface is computed from its own share of the area of its
face, and from the permeability and the direction of that face. -/
theorem C59_own_area {m : GravCtx} (ok : MeshOk m) (g0 : Nat → ℝ) :
    ∃ g, gravity m g0 = some g ∧
      (∀ v i, HasGravity m v i → g (m.vFace v i*4 + m.vSub v i) =
        coefficient m (m.vFace v i) (m.area (m.vFace v i)/m.faceVerts (m.vFace v i))) ∧
      (∀ k, (∀ v i, HasGravity m v i → k ≠ m.vFace v i*4 + m.vSub v i) → g k = g0 k) := by
  simp only [← gravDis_eq]
  classical
  obtain ⟨fv, hfv⟩ := ok.corner
  have sep : ∀ v i v' i', i < m.nFaces v → i' < m.nFaces v' →
      m.vFace v i*4 + m.vSub v i = m.vFace v' i'*4 + m.vSub v' i' → v = v' ∧ i = i' := by
    intro v i v' i' hi hi' e
    obtain ⟨a, b⟩ := hfv v i hi
    obtain ⟨a', b'⟩ := hfv v' i' hi'
    have e1 : m.vFace v i = m.vFace v' i' := by omega
    have e2 : m.vSub v i = m.vSub v' i' := by omega
    have e3 : v = v' := by rw [← b, ← b', e1, e2]
    subst e3
    exact ⟨rfl, ok.once v i i' hi hi' e1⟩
  -- the invariant: everything done so far is right
  let I : (Nat → Nat → Prop) → (Nat → ℝ) → Prop := fun done g =>
    (∀ v i, HasGravity m v i → done v i → g (m.vFace v i*4 + m.vSub v i) =
      gravDis m (m.vFace v i) (m.area (m.vFace v i)/m.faceVerts (m.vFace v i))) ∧
    (∀ k, (∀ v i, HasGravity m v i → k ≠ m.vFace v i*4 + m.vSub v i) → g k = g0 k)
  have inner : ∀ v, v < m.numVertices → m.vLocal v = true → ∀ n, n ≤ m.nFaces v → ∀ g,
      I (fun w _ => w < v) g → ∃ g', forN n (fun i g => g.bind (gravStep m v i)) (some g) = some g' ∧
        I (fun w i => w < v ∨ (w = v ∧ i < n)) g' := by
    intro v hv loc n
    induction n with
    | zero =>
      intro _ g hg
      refine ⟨g, rfl, ?_, hg.2⟩
      intro w i hw hd
      exact hg.1 w i hw (by rcases hd with h | h <;> omega)
    | succ n ih =>
      intro hn g hg
      obtain ⟨g', e, hg'⟩ := ih (by omega) g hg
      refine ⟨_, by simp only [forN]; rw [e, Option.bind_some, gravStep_eq ok v n hv loc (by omega)],
        ?_, ?_⟩
      · intro w i hw hd
        by_cases same : w = v ∧ i = n
        · obtain ⟨rfl, rfl⟩ := same
          rw [if_pos hw, wr_same]
        · have old := hg'.1 w i hw (by omega)
          split_ifs with ha
          · rw [wr_other _ _ (fun e => same (sep w i v n hw.2.2.1 (by omega) e))]; exact old
          · exact old
      · intro k hk
        split_ifs with ha
        · rw [wr_other _ _ (hk v n ha)]; exact hg'.2 k hk
        · exact hg'.2 k hk
  have outer : ∀ n, n ≤ m.numVertices → ∃ g, forN n (fun v g =>
      if !m.vLocal v then g
      else forN (m.nFaces v) (fun i g => g.bind (gravStep m v i)) g) (some g0) = some g ∧
      I (fun w _ => w < n) g := by
    intro n
    induction n with
    | zero => intro _; exact ⟨g0, rfl, fun v i _ h => absurd h (by omega), fun _ _ => rfl⟩
    | succ n ih =>
      intro hn
      obtain ⟨g, e, hg⟩ := ih (by omega)
      simp only [forN]
      rw [e]
      by_cases loc : m.vLocal n = true
      · obtain ⟨g', e', hg'⟩ := inner n (by omega) loc (m.nFaces n) (le_refl _) g hg
        refine ⟨g', by rw [loc]; simpa using e', ?_, hg'.2⟩
        intro w i hw hd
        have := hw.2.2.1
        exact hg'.1 w i hw (by
          rcases Nat.lt_succ_iff_lt_or_eq.1 hd with h | h
          · exact .inl h
          · subst h; exact .inr ⟨rfl, this⟩)
      · have l' : m.vLocal n = false := by simpa using loc
        refine ⟨g, by rw [l']; rfl, ?_, hg.2⟩
        intro w i hw hd
        refine hg.1 w i hw ?_
        rcases Nat.lt_succ_iff_lt_or_eq.1 hd with h | h
        · exact h
        · subst h; exact absurd hw.2.1 loc
  obtain ⟨g, e, hg⟩ := outer m.numVertices (le_refl _)
  exact ⟨g, e, fun v i h => hg.1 v i h h.1, hg.2⟩

/-! ### Two cells with a common face -/

namespace GravWitness

/-- Two cells with the same tensor `K` and centroids at distance 1 from their common face. -/
noncomputable def mesh (K : Matrix (Fin 3) (Fin 3) ℝ) : GravCtx where
  numVertices := 1
  numCells := 2
  vLocal := fun _ => true
  nFaces := fun v => if v = 0 then 1 else 0
  vFace := fun _ _ => 0
  vSub := fun _ _ => 2
  face := fun _ => ⟨0, 1, true⟩
  cellCen := fun c => if c = 0 then ⟨0, 0, 0⟩ else ⟨2, 0, 0⟩
  faceCen := fun _ => ⟨1, 0, 0⟩
  normal := fun _ => ⟨1, 0, 0⟩
  area := fun _ => 4
  faceVerts := fun _ => 4
  nSub := 8
  cellVertex := fun _ s => s
  cellFace := fun _ _ d => d
  K0 := fun n => K ⟨n % 9 / 3, by omega⟩ ⟨n % 3, by omega⟩
  gravity := ⟨0, 0, 9.8⟩
  neumann := false
  tpf := false

theorem tensor_eq (K) (c : Nat) : tensor (mesh K) c = K := by
  ext i j
  simp only [tensor, mesh, Matrix.of_apply]
  congr 1
  · congr 1; have := i.2; have := j.2; omega
  · congr 1; have := i.2; have := j.2; omega

theorem joins (K) : Joins (mesh K) 0 0 1 := .inl ⟨rfl, rfl⟩

theorem apart (K) : 0 < sideDistance (mesh K) 0 ((mesh K).face 0).up +
    sideDistance (mesh K) 0 ((mesh K).face 0).dn := by
  have h : sideDistance (mesh K) 0 ((mesh K).face 0).up = 1 := by
    simp [sideDistance, mesh]
  rw [h]
  have := sideDistance_nonneg (mesh K) 0 ((mesh K).face 0).dn
  linarith

theorem ok (K) : MeshOk (mesh K) where
  corner := ⟨fun _ _ => 0, by
    intro v i hi
    simp only [mesh] at hi ⊢
    split_ifs at hi with h
    · exact ⟨by omega, h.symm⟩
    · omega⟩
  once := by
    intro v i j hi hj _
    simp only [mesh] at hi hj
    split_ifs at hi hj <;> omega
  incident := by intro v i _; left; simp [mesh]
  cell := by
    intro v i c hi hc
    simp only [mesh] at hi hc ⊢
    split_ifs at hi with h
    · exact ⟨by omega, 0, 0, by omega, by omega, h.symm, rfl⟩
    · omega

/-- Anisotropy along a diagonal of the horizontal plane. -/
def diagonal : Matrix (Fin 3) (Fin 3) ℝ := !![2, -1, 0; -1, 2, 0; 0, 0, 1]

theorem diagonal_posDef : diagonal.PosDef := by
  rw [Matrix.posDef_iff_dotProduct_mulVec]
  constructor
  · ext i j
    fin_cases i <;> fin_cases j <;> simp [diagonal]
  · intro x hx
    have e : star x ⬝ᵥ diagonal.mulVec x =
        (x 0)^2 + (x 1)^2 + (x 0 - x 1)^2 + (x 2)^2 := by
      simp [diagonal, dotProduct, Matrix.mulVec, Fin.sum_univ_three]
      ring
    rw [e]
    by_contra hc
    apply hx
    have h0 := sq_nonneg (x 0)
    have h1 := sq_nonneg (x 1)
    have h2 := sq_nonneg (x 2)
    have h3 := sq_nonneg (x 0 - x 1)
    funext i
    fin_cases i
    · exact pow_eq_zero_iff (two_ne_zero) |>.1 (by linarith : (x 0)^2 = 0)
    · exact pow_eq_zero_iff (two_ne_zero) |>.1 (by linarith : (x 1)^2 = 0)
    · exact pow_eq_zero_iff (two_ne_zero) |>.1 (by linarith : (x 2)^2 = 0)

/-- A low but common permeability, 1e-16 m² (0.1 millidarcy). -/
def shale : Matrix (Fin 3) (Fin 3) ℝ := Matrix.diagonal fun _ => 1e-16

theorem shale_posDef : shale.PosDef := by
  apply Matrix.PosDef.diagonal
  intro i
  norm_num

end GravWitness

/-- **C58 violated**: for two cells with the same positive definite tensor the tensor used at their
face is a different one, because negative entries are replaced by 0. -/
theorem C58_negative_lost : ∃ m f up dn, Joins m f up dn ∧ (tensor m up).PosDef ∧
    tensor m dn = tensor m up ∧
    0 < sideDistance m f (m.face f).up + sideDistance m f (m.face f).dn ∧
    tensor m up 0 1 = -1 ∧ meanTensor m f up dn 0 1 = -1 ∧
    Geo.Spec.matrix (faceTensor m f) 0 1 = 0 := by
  have p0 : (tensor (GravWitness.mesh GravWitness.diagonal) 0).PosDef := by
    rw [GravWitness.tensor_eq]; exact GravWitness.diagonal_posDef
  have p1 : (tensor (GravWitness.mesh GravWitness.diagonal) 1).PosDef := by
    rw [GravWitness.tensor_eq]; exact GravWitness.diagonal_posDef
  have same : tensor (GravWitness.mesh GravWitness.diagonal) 1 =
    tensor (GravWitness.mesh GravWitness.diagonal) 0 := by rw [GravWitness.tensor_eq, GravWitness.tensor_eq]
  have val : tensor (GravWitness.mesh GravWitness.diagonal) 0 0 1 = -1 := by
    rw [GravWitness.tensor_eq]; simp [GravWitness.diagonal]
  refine ⟨GravWitness.mesh GravWitness.diagonal, 0, 0, 1, GravWitness.joins _, p0, same,
    GravWitness.apart _, val, ?_, ?_⟩
  · rw [C58_same p0 same, val]
  · have := C58_entries (GravWitness.joins GravWitness.diagonal) p0 p1 (GravWitness.apart _) 0 1
    rw [C58_same p0 same, val] at this
    rw [if_pos (by left; norm_num)] at this
    exact this

/-- **C58 violated**: a tensor of 1e-16 m² in both cells becomes the zero tensor at their face, so
gravity does not act there at all. -/
theorem C58_low_permeability_lost : ∃ m f up dn, Joins m f up dn ∧
    tensor m up = Matrix.diagonal (fun _ => 1e-16) ∧ tensor m dn = Matrix.diagonal (fun _ => 1e-16) ∧
    0 < sideDistance m f (m.face f).up + sideDistance m f (m.face f).dn ∧
    Geo.Spec.matrix (faceTensor m f) = 0 ∧ ∀ A, gravDis m f A = 0 := by
  have p0 : (tensor (GravWitness.mesh GravWitness.shale) 0).PosDef := by
    rw [GravWitness.tensor_eq]; exact GravWitness.shale_posDef
  have p1 : (tensor (GravWitness.mesh GravWitness.shale) 1).PosDef := by
    rw [GravWitness.tensor_eq]; exact GravWitness.shale_posDef
  have same : tensor (GravWitness.mesh GravWitness.shale) 1 =
    tensor (GravWitness.mesh GravWitness.shale) 0 := by rw [GravWitness.tensor_eq, GravWitness.tensor_eq]
  have zero : Geo.Spec.matrix (faceTensor (GravWitness.mesh GravWitness.shale) 0) = 0 := by
    ext i j
    have := C58_entries (GravWitness.joins GravWitness.shale) p0 p1 (GravWitness.apart _) i j
    rw [C58_same p0 same, GravWitness.tensor_eq] at this
    change faceTensor _ 0 (3*i + j) = 0
    rw [this]
    by_cases h : i = j
    · subst h
      rw [if_pos]
      right
      simp only [GravWitness.shale, Matrix.diagonal_apply_eq, Geo.machineEps]
      rw [abs_of_pos (by norm_num)]
      norm_num
    · rw [GravWitness.shale, Matrix.diagonal_apply_ne _ h]; simp
  refine ⟨GravWitness.mesh GravWitness.shale, 0, 0, 1, GravWitness.joins _,
    GravWitness.tensor_eq _ _, GravWitness.tensor_eq _ _, GravWitness.apart _, zero, ?_⟩
  intro A
  rw [gravDis_eq]
  unfold coefficient
  rw [zero]
  simp [GravWitness.mesh]

/-- The hypotheses of `C58_tensor_partial` are met with the unit tensor. -/
example : ∃ m f up dn, Joins m f up dn ∧ (tensor m up).PosDef ∧ (tensor m dn).PosDef ∧
    0 < sideDistance m f (m.face f).up + sideDistance m f (m.face f).dn ∧
    (∀ i j, meanTensor m f up dn i j = 0 ∨ Geo.machineEps ≤ meanTensor m f up dn i j) := by
  have p : ∀ c, (tensor (GravWitness.mesh 1) c).PosDef := by
    intro c; rw [GravWitness.tensor_eq]; exact Matrix.PosDef.one
  refine ⟨GravWitness.mesh 1, 0, 0, 1, GravWitness.joins _, p 0, p 1, GravWitness.apart _, ?_⟩
  intro i j
  rw [C58_same (p 0) (by rw [GravWitness.tensor_eq, GravWitness.tensor_eq]), GravWitness.tensor_eq]
  by_cases h : i = j
  · right; subst h; rw [Matrix.one_apply_eq]; unfold Geo.machineEps; norm_num
  · left; exact Matrix.one_apply_ne h

/-- The mesh meets the hypotheses of `C59_own_area` and has a subface with gravity. -/
example : MeshOk (GravWitness.mesh 1) ∧ HasGravity (GravWitness.mesh 1) 0 0 :=
  ⟨GravWitness.ok 1, by simp [HasGravity, GravWitness.mesh]⟩

/-- The hypotheses of `C58_two_point` are met. -/
example : ∃ m f up dn, Joins m f up dn ∧ (∀ c, c = up ∨ c = dn → ∀ i, 0 < tensor m c i i) ∧
    sidePoint m f (m.face f).up ≠ sidePoint m f (m.face f).dn := by
  refine ⟨GravWitness.mesh 1, 0, 0, 1, GravWitness.joins _, ?_, ?_⟩
  · intro c _ i; rw [GravWitness.tensor_eq]; simp
  · simp [GravWitness.mesh, sidePoint]

end TDy.Mpfao.Props
