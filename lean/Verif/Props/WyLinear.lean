import Verif.Proofs.WyLinear
import Verif.Props.WyEnergy

/-!
# C208: linear pressures are exact for the WY method
-/

namespace TDy.Fe.Props

open TDy.Fe TDy.Fe.Spec TDy.Fe.Proofs Finset

noncomputable section

/-- C208.  Cells that are parallelograms or parallelepipeds, pressures that are linear in space in the
cells and where they are given, permeabilities with one and the same `W = K grad p` everywhere (in
particular one permeability for the whole mesh), and faces without a given pressure that lie between cells:
the recovered velocity at every vertex of every face is exactly `-K grad p` along the normal. -/
theorem C208_exact_velocities (w : Wy) (K : Nat → Nat → ℝ) (l l' : Local) (u : Nat → ℝ)
    (vel vel' : Nat → Nat → ℝ) (cor : Nat → Nat → Nat) (pl : Nat → Nat → Nat)
    (hstar : ∀ v, w.vStart ≤ v → v < w.vEnd → Star w v (cor v))
    (hpl : ∀ v, w.vStart ≤ v → v < w.vEnd → ∀ f ∈ w.faces v, Place w f v (pl f v))
    (hsides : ∀ v, w.vStart ≤ v → v < w.vEnd → ∀ f ∈ w.faces v, ¬ Wy.given w f →
      Opposite w v (cor v) f)
    (D : Nat → Matrix (Fin w.dim) (Fin w.dim) ℝ) (haff : ∀ c < w.nCells, Affine w c (D c))
    (b : ℝ) (g W : Fin w.dim → ℝ) (hK : ∀ c < w.nCells, (toMatrix w.dim (K c)).mulVec g = W)
    (hu : ∀ c < w.nCells, u c = linearAt w b g c) (hp : ∀ f, Wy.given w f → w.pb f = linearAt w b g f)
    (hl : localElementCompute w K l = .ok l') (hok : wyRecoverVelocity w l'.A u vel = .ok vel') :
    ∀ v, w.vStart ≤ v → v < w.vEnd → ∀ f ∈ w.faces v, vel' f (pl f v) = normalVelocity w W f := by
  intro v h1 h2 f hf
  have hst := hstar v h1 h2
  have hL := local_ok hl
  have hdet := recover_det hstar hok v h1 h2
  obtain ⟨y, hy, hs, _⟩ := recover_ok hstar hpl hok v h1 h2
  set n := (w.faces v).length with hn
  -- the exact velocities by place
  set z : Nat → ℝ := fun r => normalVelocity w W ((w.faces v).getD r 0) with hz
  have hzF : ∀ e ∈ w.faces v, z (Fi w v e) = normalVelocity w W e := by
    intro e he
    rw [hz]
    dsimp only
    rw [getD_lt _ (Fi_lt he)]
    exact congrArg _ (List.getElem_idxOf (Fi_lt he))
  have hexact : ∀ r < n, ∑ k ∈ range n, aMat w l'.A v (cor v) r k*z k = fVec w u v (cor v) r := by
    intro r hr
    set e := (w.faces v)[r] with hedef
    have he : e ∈ w.faces v := List.getElem_mem hr
    have hre : r = Fi w v e := (hst.faces_nodup.idxOf_getElem r hr).symm
    have hif : ∀ c i, (r = Fi w v (w.face c (cor v c) i)) ↔ w.face c (cor v c) i = e := by
      intro c i
      rw [hre]
      exact (Fi_eq he).trans eq_comm
    rw [aMat_mul hst]
    have hcell : ∀ c ∈ (w.cells v).toFinset, ∀ i ∈ range w.dim,
        (if r = Fi w v (w.face c (cor v c) i) then
          ∑ j ∈ range w.dim, aTerm w l'.A (cor v) c i j*z (Fi w v (w.face c (cor v c) j)) else 0)
        = if w.face c (cor v c) i = e then
            wgt w*w.sign c (cor v c) i*w.V e*(u c - linearAt w b g e) else 0 := by
      intro c hc i hi
      have hc' := List.mem_toFinset.1 hc
      have hi' := mem_range.1 hi
      by_cases hfi : w.face c (cor v c) i = e
      · rw [if_pos hfi, if_pos ((hif c i).2 hfi)]
        have hq := hst.cor_lt c hc'
        have hlc := (hL c (cells_lt hc')).1 _ hq
        have key := affine_darcy (haff c (cells_lt hc')) hq (hK c (cells_lt hc'))
          (hlc.2.1 (by omega)) b hi'
        rw [hfi] at key
        rw [hu c (cells_lt hc')]
        unfold wgt
        rw [← key]
        refine sum_congr rfl fun j hj => ?_
        have hj' := mem_range.1 hj
        rw [hzF _ (hst.face_mem c hc' j hj')]
        unfold aTerm
        rw [hlc.2.2 i hi' j hj', hfi]
        ring
      · rw [if_neg hfi, if_neg (fun h => hfi ((hif c i).1 h))]
    rw [sum_congr rfl (fun c hc => sum_congr rfl (hcell c hc))]
    unfold fVec gVec
    rw [← sum_sub_distrib]
    by_cases hg : Wy.given w e
    · refine sum_congr rfl fun c hc => ?_
      rw [← sum_sub_distrib]
      refine sum_congr rfl fun i hi => ?_
      by_cases hfi : w.face c (cor v c) i = e
      · rw [if_pos hfi, if_pos ((hif c i).2 hfi),
          if_pos ⟨(hif c i).2 hfi, by rw [hfi, hg.1, hg.2]; rfl⟩, hfi, hp e hg]
        unfold bTerm
        rw [hfi]
        ring
      · rw [if_neg hfi, if_neg (fun h => hfi ((hif c i).1 h)), if_neg (fun h => hfi ((hif c i).1 h.1)),
          sub_zero]
    · have hopp := hsides v h1 h2 e he hg
      unfold Opposite at hopp
      have hterm : ∀ c ∈ (w.cells v).toFinset,
          (∑ i ∈ range w.dim, if w.face c (cor v c) i = e then
            wgt w*w.sign c (cor v c) i*w.V e*(u c - linearAt w b g e) else 0)
          = ((∑ i ∈ range w.dim,
              if r = Fi w v (w.face c (cor v c) i) then bTerm w (cor v) c i*u c else 0)
            - ∑ i ∈ range w.dim, if r = Fi w v (w.face c (cor v c) i)
              ∧ (w.bc (w.face c (cor v c) i) && w.hasPressure) = true then
              bTerm w (cor v) c i*w.pb (w.face c (cor v c) i) else 0)
          - (wgt w*w.V e*linearAt w b g e)
            *∑ i ∈ range w.dim, if w.face c (cor v c) i = e then w.sign c (cor v c) i else 0 := by
        intro c hc
        rw [← sum_sub_distrib, mul_sum, ← sum_sub_distrib]
        refine sum_congr rfl fun i hi => ?_
        by_cases hfi : w.face c (cor v c) i = e
        · rw [if_pos hfi, if_pos ((hif c i).2 hfi), if_pos hfi, if_neg]
          · unfold bTerm
            rw [hfi]
            ring
          · intro h
            apply hg
            have := h.2
            rw [hfi] at this
            simpa [Wy.given] using this
        · rw [if_neg hfi, if_neg (fun h => hfi ((hif c i).1 h)),
            if_neg (fun h => hfi ((hif c i).1 h.1)), if_neg hfi]
          ring
      rw [sum_congr rfl hterm, sum_sub_distrib, ← mul_sum, hopp, mul_zero, sub_zero]
  -- the system of the vertex has one solution
  have hzero : (mat n n (aMat w l'.A v (cor v))).mulVec (fun k => y k - z k) = 0 := by
    funext r
    show ∑ k : Fin n, aMat w l'.A v (cor v) r k*(y k - z k) = 0
    rw [Fin.sum_univ_eq_sum_range (fun k => aMat w l'.A v (cor v) r k*(y k - z k)),
      sum_congr rfl (fun k _ => mul_sub _ (y k) (z k)), sum_sub_distrib, hs r r.2, hexact r r.2, sub_self]
  have := congrFun (Matrix.eq_zero_of_mulVec_eq_zero hdet hzero) ⟨Fi w v f, Fi_lt hf⟩
  rw [hy f hf, ← hzF f hf]
  exact sub_eq_zero.1 this

/-- C208.  Such a pressure is at rest: nothing flows into or out of a cell in the balance, and the residual
is the accumulation less the source. -/
theorem C208_steady (w : Wy) (K : Nat → Nat → ℝ) (l : Local) (porosity dSdP u dpdt : Nat → ℝ)
    (vel : Nat → Nat → ℝ) (R R' : Nat → ℝ) (cor : Nat → Nat → Nat) (pl : Nat → Nat → Nat)
    (hstar : ∀ v, w.vStart ≤ v → v < w.vEnd → Star w v (cor v))
    (hpl : ∀ v, w.vStart ≤ v → v < w.vEnd → ∀ f ∈ w.faces v, Place w f v (pl f v))
    (hsides : ∀ v, w.vStart ≤ v → v < w.vEnd → ∀ f ∈ w.faces v, ¬ Wy.given w f →
      Opposite w v (cor v) f)
    (hmap : ∀ c < w.nCells, 0 ≤ w.global c → CellMap w pl c) (hnq : w.nq = 2^w.dim)
    (D : Nat → Matrix (Fin w.dim) (Fin w.dim) ℝ) (haff : ∀ c < w.nCells, Affine w c (D c))
    (b : ℝ) (g W : Fin w.dim → ℝ) (hK : ∀ c < w.nCells, (toMatrix w.dim (K c)).mulVec g = W)
    (hu : ∀ c < w.nCells, u c = linearAt w b g c) (hp : ∀ f, Wy.given w f → w.pb f = linearAt w b g f)
    (hres : wyResidual w K porosity dSdP u dpdt l vel R = .ok R') :
    ∀ c < w.nCells, 0 ≤ w.global c → R' c = porosity c*dSdP c*dpdt c - cellSource w c := by
  intro c hc ho
  obtain ⟨l', vel', hl, hv, hR⟩ := residual_parts hres
  have hL := local_ok hl
  have hm := hmap c hc ho
  have hex := C208_exact_velocities w K l l' u vel vel' cor pl hstar hpl hsides D haff b g W hK hu hp hl hv
  have hdiv : wyDivergence w vel' c = 0 := by
    rw [divergence_corners hstar hpl hm, sum_comm]
    refine sum_eq_zero fun d hd => ?_
    have hd' := mem_range.1 hd
    have hterm : ∀ q ∈ range w.nq, wgt w*w.sign c q d*w.V (w.face c q d)
          *vel' (w.face c q d) (pl (w.face c q d) (w.vmap c q))
        = -(wgt w*(2^(w.dim - 1)*(D c).det*(D c)⁻¹.mulVec W ⟨d, hd'⟩))*cornerSide q d := by
      intro q hq
      have hq' := mem_range.1 hq
      obtain ⟨h1, h2, h3⟩ := hm.vertex q hq'
      have hcq := (hstar _ h1 h2).cor_only c h3 q hq' rfl
      have hmem := (hstar _ h1 h2).face_mem c h3 d hd'
      rw [← hcq] at hmem
      rw [hex _ h1 h2 _ hmem]
      have := affine_flux (haff c hc) hq' W ⟨d, hd'⟩
      dsimp only at this
      linear_combination wgt w*this
    rw [sum_congr rfl hterm, ← mul_sum, hnq, sum_cornerSide hd', mul_zero]
  rw [hR c, if_pos ⟨hc, ho⟩, local_source (hL c hc), hdiv, add_zero]

/-- C208 (partial: one process, and no entry lost to the threshold).  Without a source, the solution of the
assembled system is the linear pressure in every cell. -/
theorem C208_solution_is_linear_partial (w : Wy) (K : Nat → Nat → ℝ) (l l' : Local) (s s' : Sys)
    (cor : Nat → Nat → Nat) (pl : Nat → Nat → Nat) (num : Nat → Nat) (hnum : GlobalNumbers w num)
    (hown : ∀ c < w.nCells, 0 ≤ w.global c)
    (hstar : ∀ v, w.vStart ≤ v → v < w.vEnd → Star w v (cor v))
    (hpl : ∀ v, w.vStart ≤ v → v < w.vEnd → ∀ f ∈ w.faces v, Place w f v (pl f v))
    (hsides : ∀ v, w.vStart ≤ v → v < w.vEnd → ∀ f ∈ w.faces v, ¬ Wy.given w f →
      Opposite w v (cor v) f)
    (hmap : ∀ c < w.nCells, CellMap w pl c) (hnq : w.nq = 2^w.dim)
    (hreg : ∀ c < w.nCells, Regular w K c)
    (hcov : ∀ v, w.vStart ≤ v → v < w.vEnd → ∀ f ∈ w.faces v, Covered w v (cor v) f)
    (hsize : ∀ v, w.vStart ≤ v → v < w.vEnd → (w.faces v).length ≤ 12 ∧ (w.cells v).length ≤ 12)
    (hlost : ∀ v, w.vStart ≤ v → v < w.vEnd → NothingLost w l'.A v) (htied : Tied w cor)
    (hforce : w.hasForcing = false)
    (D : Nat → Matrix (Fin w.dim) (Fin w.dim) ℝ) (haff : ∀ c < w.nCells, Affine w c (D c))
    (b : ℝ) (g W : Fin w.dim → ℝ) (hK : ∀ c < w.nCells, (toMatrix w.dim (K c)).mulVec g = W)
    (hp : ∀ f, Wy.given w f → w.pb f = linearAt w b g f)
    (hzero : (∀ i j, s.K i j = 0) ∧ ∀ i, s.F i = 0)
    (hok : wyComputeSystem w K l s = .ok (l', s')) :
    SolvesCells w num s'.K (fun c => s'.F (num c)) (linearAt w b g) ∧
    ∀ p, SolvesCells w num s'.K (fun c => s'.F (num c)) p → ∀ c < w.nCells, p c = linearAt w b g c := by
  have hsol : SolvesCells w num s'.K (fun c => s'.F (num c)) (linearAt w b g) := by
    intro c hc
    obtain ⟨hl, t, ht, -⟩ := system_parts hok
    obtain ⟨l2, s2, hsys2, vel', hv⟩ := C119_regular_partial w K cor hstar hreg hcov hsize l s
      (linearAt w b g) (fun _ _ => 0)
    obtain ⟨hl2, -⟩ := system_parts hsys2
    have hres : ∃ R', wyResidual w K (fun _ => 0) (fun _ => 0) (linearAt w b g) (fun _ => 0) l
        (fun _ _ => 0) (fun _ => 0) = .ok R' := by
      unfold wyResidual
      rw [hl2]
      dsimp only
      rw [hv]
      exact ⟨_, rfl⟩
    obtain ⟨R', hR'⟩ := hres
    have h1 := C208_steady w K l _ _ _ _ _ _ R' cor pl hstar hpl hsides (fun c hc _ => hmap c hc) hnq D haff
      b g W hK (fun _ _ => rfl) hp hR' c hc (hown c hc)
    have h2 := (residual_lost w K cor pl l l' l s s' _ _ _ _ _ _ R' hstar hpl (fun c hc _ => hmap c hc)
      (row_inj hnum) hzero hok hR' c hc (hown c hc)).trans (sum_eq_zero fun q hq => by
        obtain ⟨g1, g2, g3⟩ := (hmap c hc).vertex q (mem_range.1 hq)
        refine sum_eq_zero fun m _ => ?_
        obtain ⟨x, x', hx⟩ := vertices_ok ht (w.vmap c q - w.vStart) (by omega)
        rw [Nat.add_sub_cancel' g1] at hx
        rw [kept_all (hstar _ g1 g2) hx (hlost _ g1 g2), sub_self, zero_mul])
    rw [row_num hnum hc, sum_congr rfl (fun c' hc' => by
      rw [row_num hnum (mem_range.1 hc')] : ∀ c' ∈ range w.nCells,
        s'.K (num c) (w.row c')*linearAt w b g c' = s'.K (num c) (num c')*linearAt w b g c'), h1] at h2
    have hs0 : cellSource w c = 0 := by
      unfold cellSource
      rw [hforce]
      rfl
    rw [hs0] at h2
    linarith
  refine ⟨hsol, fun p hp' => ?_⟩
  exact (C183_one_solution_partial w K l l' s s' cor num hnum hown hstar hreg hcov hlost htied hzero.1 hok
    _).2 p _ hp' hsol

end

end TDy.Fe.Props
