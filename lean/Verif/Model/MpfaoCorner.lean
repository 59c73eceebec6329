import Verif.Loop
import Verif.Model.MpfaoFlux

/-!
# MPFA-O: transmissibilities of corner vertices, and connected regions

Models `src/fv/mpfao/tdympfao.c` lines 1515-1858 and `src/fv/share/tdyregion.c`.

A corner vertex has one cell, with three boundary faces at the vertex.  `SetupUpwindFacesForSubcell`
does not reorder its faces, so the order of the faces of the vertex and the order of the faces of the
subcell are unrelated.
-/

namespace TDy.Mpfao

noncomputable section

/-- What the routine reads about a corner vertex: `subc_Gmatrix` of its subcell, the faces of the
subcell in the order of `subcell_face_ids`, the faces of the vertex in the order of
`vertices->face_ids`, `is_internal` of a face, and the boundary number (`-cell_id-1` of its negative
cell identifier) of a face. -/
structure Corner where
  G : Nat → Nat → ℝ
  face : Nat → Nat
  vface : Nat → Nat
  internal : Nat → Bool
  fbnd : Nat → Nat

/-- `Trans[vertex][iface][j]` before the reordering, tdympfao.c 1571-1578. -/
def cornerTrans0 (c : Corner) (i j : Nat) : ℝ :=
  if j < 3 then -c.G i j else 0.0 + c.G i 0 + c.G i 1 + c.G i 2

/-- tdympfao.c 1597-1619: one iteration of the loop that fills `idxBnd`. -/
def cornerGatherStep (c : Corner) (f : Nat) (st : Nat × (Nat → Nat)) : Nat × (Nat → Nat) :=
  if c.internal (c.face f) then st else (st.1 + 1, wr st.2 st.1 (c.fbnd (c.face f)))

/-- `numBnd` and `idxBnd`, tdympfao.c 1597-1619. -/
def cornerGather (c : Corner) : Nat × (Nat → Nat) :=
  forN 3 (fun f st => cornerGatherStep c f st) (0, fun _ => 0)

/-- tdympfao.c 1625-1650: the row of `Trans_mat` saved for face `face i` of the subcell, times the
pressure `u` of the cell and the boundary pressures `pb`. -/
def cornerRowTimes (c : Corner) (u : ℝ) (pb : Nat → ℝ) (i : Nat) : ℝ :=
  (∑ j ∈ Finset.range (cornerGather c).1, cornerTrans0 c i j*pb ((cornerGather c).2 j)) +
    cornerTrans0 c i (cornerGather c).1*u

/-- tdympfao.c 1679-1694: the first subcell face that is face `x`. -/
def rowOf (c : Corner) (x : Nat) : Option Nat :=
  if c.face 0 = x then some 0 else if c.face 1 = x then some 1
  else if c.face 2 = x then some 2 else none

/-- tdympfao.c 1679-1694: `subcell_boundary_cell_id`, of which the search for the row of face `x`
fills the entries up to the one found; `none` is not initialised. -/
def fillSub (c : Corner) (x : Nat) (a : Nat → Option Nat) : Nat → Option Nat :=
  forN (match rowOf c x with | some r => r + 1 | none => 3)
    (fun mm a => wr a mm (some (c.fbnd (c.face mm)))) a

/-- `subcell_boundary_cell_id` after the loop over the faces, tdympfao.c 1662-1701. -/
def subBnd (c : Corner) : Nat → Option Nat :=
  forN 3 (fun iface a => fillSub c (c.vface iface) a) (fun _ => none)

/-- tdympfao.c 1732-1738: the first column of the subcell with the boundary number of the `j`-th face
of the vertex. -/
def colOf (c : Corner) (j : Nat) : Option Nat :=
  if subBnd c 0 = some (c.fbnd (c.vface j)) then some 0
  else if subBnd c 1 = some (c.fbnd (c.vface j)) then some 1
  else if subBnd c 2 = some (c.fbnd (c.vface j)) then some 2 else none

/-- `T_1`, tdympfao.c 1696-1700, when the rows are found. -/
def cornerT1 (c : Corner) (row : Nat → Nat) (iface j : Nat) : ℝ :=
  if j < 3 then -c.G (row iface) j
  else 0.0 + c.G (row iface) 0 + c.G (row iface) 1 + c.G (row iface) 2

/-- `T_2`, tdympfao.c 1730-1744; `junk` is what the buffer contains. -/
def cornerT2 (c : Corner) (row col : Nat → Nat) (junk : Nat → Nat → ℝ) : Nat → Nat → ℝ :=
  let m := forN 3 (fun j m => fun a b => if a < 3 ∧ b = col j then cornerT1 c row a j else m a b) junk
  fun a b => if b = 3 then cornerT1 c row a 3 else m a b

/-- `ComputeTransmissibilityMatrix_ForBoundaryVertex_NotSharedWithInternalVertices`, tdympfao.c
1515-1756: `Trans[vertex]` after the reordering; `none` when a row or column is not found and the
code indexes with -1. -/
def cornerTrans (c : Corner) (junk : Nat → Nat → ℝ) : Option (Nat → Nat → ℝ) :=
  match rowOf c (c.vface 0), rowOf c (c.vface 1), rowOf c (c.vface 2),
      colOf c 0, colOf c 1, colOf c 2 with
  | some r0, some r1, some r2, some c0, some c1, some c2 =>
    let row : Nat → Nat := fun i => if i = 0 then r0 else if i = 1 then r1 else r2
    let col : Nat → Nat := fun i => if i = 0 then c0 else if i = 1 then c1 else c2
    let T2 := cornerT2 c row col junk
    some fun i j => if j = 0 then T2 i 3 else T2 i (j - 1)
  | _, _, _, _, _, _ => none

/-! ## Connected regions -/

/-- `TDyRegion`: the region of each cell. -/
structure Region where
  num : Nat
  id : Nat → ℤ

/-- `TDyRegionAddCells`, tdyregion.c 25-36: whatever the region contained is replaced. -/
def Region.addCells (_r : Region) (n : Nat) (ids : Nat → ℤ) : Region := ⟨n, ids⟩

/-- `TDyRegionAreCellsInTheSameRegion`, tdyregion.c 52-60: the returned `PetscBool`.  For a cell
outside the region the error code is returned as the answer. -/
def Region.areSame (r : Region) (a b : Nat) : Int :=
  if a ≥ r.num ∨ b ≥ r.num then 83 else if r.id a = r.id b then 1 else 0

/-- tdympfao.c 1772-1795: one face of `UpdateTransmissibilityMatrix`. -/
def zeroFace (c : Ctx) (r : Region) (f : Nat) (A : Nat → Nat → ℝ) : Nat → Nat → ℝ :=
  if (c.face f).up ≥ 0 ∧ (c.face f).dn ≥ 0 then
    if r.areSame (c.face f).up.toNat (c.face f).dn.toNat = 0 then
      forN 4 (fun k A => fun a b => if a = f*4 + k then 0 else A a b) A
    else A
  else A

/-- `UpdateTransmissibilityMatrix`, tdympfao.c 1758-1799. -/
def updateTrans (c : Ctx) (numFaces : Nat) (r : Region) (A : Nat → Nat → ℝ) : Nat → Nat → ℝ :=
  forN numFaces (fun f A => zeroFace c r f A) A

/-- The matrix at the end of `ComputeTransmissibilityMatrix`, tdympfao.c 1848-1856: the regions are
used with the TPF `gmatrix_method` only; otherwise a warning is printed. -/
def finalTrans (c : Ctx) (numFaces : Nat) (tpf : Bool) (r : Region) : Nat → Nat → ℝ :=
  if r.num > 0 then (if tpf then updateTrans c numFaces r (transMat c) else transMat c)
  else transMat c

/-- `MatMult` of the final matrix with the pressures. -/
def regionTtimesP (c : Ctx) (numFaces : Nat) (tpf : Bool) (r : Region) (row : Nat) : ℝ :=
  ∑ b ∈ Finset.range (c.numCells + c.numBnd), finalTrans c numFaces tpf r row b*pVec c b

/-- Flux of a subface with the final matrix, tdympfao_ts.c 12-150. -/
def regionFlux (c : Ctx) (numFaces : Nat) (tpf : Bool) (r : Region) (v i : Nat) : ℝ :=
  fluxm c (c.face ((c.vert v).face i)) (regionTtimesP c numFaces tpf r (slot (c.vert v) i))
    (c.grav (slot (c.vert v) i))

end

end TDy.Mpfao
