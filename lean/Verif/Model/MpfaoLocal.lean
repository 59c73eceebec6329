import Verif.Model.MpfaoTrans

/-!
# MPFA-O: the buffers of the local problem of a vertex

Models how `ComputeTransmissibilityMatrix_ForNonCornerVertex` (src/fv/mpfao/tdympfao.c 1126-1422) cuts
the matrices C and F into blocks (`ExtractSubMatrix`, 874-888; `ExtractsubCMatrices`, 890-928;
`ExtractsubFMatrices`, 930-951), packs the blocks column by column into one-dimensional buffers for
LAPACK and BLAS (`ComputeAinvB`, 1078-1107; `ComputeCtimesAinvB`, 1109-1124) and unpacks the results
into `Trans`.  `TDy.Mpfao.trans` is the same function written with matrices.
-/

namespace TDy.Mpfao.Buf

open TDy TDy.Mpfao

/-- `ExtractSubMatrix`, tdympfao.c 874-888, into a matrix of zeros (`TDyAlloc` clears memory). -/
def extract (M : Nat → Nat → ℝ) (rS rE cS cE : Nat) : Nat → Nat → ℝ :=
  forN (rE - rS) (fun i s => forN (cE - cS) (fun j s =>
    wr2 s (rS + i - rS) (cS + j - cS) (M (rS + i) (cS + j))) s) (fun _ _ => 0)

/-- The nine blocks of C. -/
structure Blocks where
  b11 : Nat → Nat → ℝ
  b12 : Nat → Nat → ℝ
  b13 : Nat → Nat → ℝ
  b21 : Nat → Nat → ℝ
  b22 : Nat → Nat → ℝ
  b23 : Nat → Nat → ℝ
  b31 : Nat → Nat → ℝ
  b32 : Nat → Nat → ℝ
  b33 : Nat → Nat → ℝ

/-- `ExtractsubCMatrices`, tdympfao.c 913-923; `r1 r2 r3` are the numbers of rows of the blocks,
`c1 c2 c3` those of columns. -/
def subC (C : Nat → Nat → ℝ) (r1 r2 r3 c1 c2 c3 : Nat) : Blocks :=
  { b11 := extract C 0 r1 0 c1
    b12 := extract C 0 r1 c1 (c1 + c2)
    b13 := extract C 0 r1 (c1 + c2) (c1 + c2 + c3)
    b21 := extract C r1 (r1 + r2) 0 c1
    b22 := extract C r1 (r1 + r2) c1 (c1 + c2)
    b23 := extract C r1 (r1 + r2) (c1 + c2) (c1 + c2 + c3)
    b31 := extract C (r1 + r2) (r1 + r2 + r3) 0 c1
    b32 := extract C (r1 + r2) (r1 + r2 + r3) c1 (c1 + c2)
    b33 := extract C (r1 + r2) (r1 + r2 + r3) (c1 + c2) (c1 + c2 + c3) }

/-- The three blocks of F. -/
structure FBlocks where
  b1 : Nat → Nat → ℝ
  b2 : Nat → Nat → ℝ
  b3 : Nat → Nat → ℝ

/-- `ExtractsubFMatrices`, tdympfao.c 944-946. -/
def subF (F : Nat → Nat → ℝ) (ncol r1 r2 r3 : Nat) : FBlocks :=
  { b1 := extract F 0 r1 0 ncol
    b2 := extract F r1 (r1 + r2) 0 ncol
    b3 := extract F (r1 + r2) (r1 + r2 + r3) 0 ncol }

/-- `buf[idx] = x; idx++;` -/
def push {α : Type} (x : α) (st : Nat × (Nat → α)) : Nat × (Nat → α) := (st.1 + 1, wr st.2 st.1 x)

/-- The form of the packing loops, tdympfao.c 1247-1260, 1262-1275, 1278-1297, 1299-1316: for each of
`m` columns the `h1` rows of `g1`, then the `h2` of `g2`, then the `h3` of `g3`. -/
def packCols {α : Type} (m h1 h2 h3 : Nat) (g1 g2 g3 : Nat → Nat → α) (st : Nat × (Nat → α)) :
    Nat × (Nat → α) :=
  forN m (fun j st =>
    forN h3 (fun i st => push (g3 i j) st)
      (forN h2 (fun i st => push (g2 i j) st)
        (forN h1 (fun i st => push (g1 i j) st) st))) st

/-- `Cup_11 .. Cup_33`, tdympfao.c 1231-1236. -/
def cUp (v : Vtx) : Blocks := subC (candF v).Cup (nIn v) (nDirUp v) (nNeuUp v) (nIn v) (nDir v) (nNeu v)

/-- `Cdn_11 .. Cdn_33`, tdympfao.c 1238-1243. -/
def cDn (v : Vtx) : Blocks := subC (candF v).Cdn (nIn v) (nDirDn v) (nNeuDn v) (nIn v) (nDir v) (nNeu v)

/-- tdympfao.c 1225 -/
def fUp (v : Vtx) : FBlocks := subF (candF v).Fup v.npcen (nIn v) (nDirUp v) (nNeuUp v)

/-- tdympfao.c 1226 -/
def fDn (v : Vtx) : FBlocks := subF (candF v).Fdn v.npcen (nIn v) (nDirDn v) (nNeuDn v)

/-- `BINBCxCDBC_1d`, tdympfao.c 1246-1275, with the final index. -/
def packB (v : Vtx) : Nat × (Nat → ℝ) :=
  packCols (nDir v) (nIn v) (nNeuUp v) (nNeuDn v)
    (fun i j => (cUp v).b12 i j - (cDn v).b12 i j) (fun i j => -(cUp v).b32 i j)
    (fun i j => -(cDn v).b32 i j)
    (packCols v.npcen (nIn v) (nNeuUp v) (nNeuDn v)
      (fun i j => -(fUp v).b1 i j + (fDn v).b1 i j) (fun i j => -(fUp v).b3 i j)
      (fun i j => -(fDn v).b3 i j) (0, fun _ => 0))

/-- `AINBCxINBC_1d` and `CupINBCxINBC_1d`, tdympfao.c 1277-1316, which are written at the same places,
as one buffer of pairs. -/
def packA (v : Vtx) : Nat × (Nat → ℝ × ℝ) :=
  packCols (nNeu v) (nIn v) (nNeuUp v) (nNeuDn v)
    (fun i j => (-(cUp v).b13 i j + (cDn v).b13 i j, (cUp v).b13 i j))
    (fun i j => (-(cUp v).b33 i j, (cUp v).b33 i j)) (fun i j => (-(cDn v).b33 i j, (cDn v).b33 i j))
    (packCols (nIn v) (nIn v) (nNeuUp v) (nNeuDn v)
      (fun i j => (-(cUp v).b11 i j + (cDn v).b11 i j, (cUp v).b11 i j))
      (fun i j => (-(cUp v).b31 i j, (cUp v).b31 i j)) (fun i j => (-(cDn v).b31 i j, (cDn v).b31 i j))
      (0, fun _ => (0, 0)))

/-- `CupDBCxIn_1d`, tdympfao.c 1318-1324. -/
def packUp (v : Vtx) : Nat × (Nat → ℝ) :=
  forN (nIn v) (fun j st => forN (nDirUp v) (fun i st => push ((cUp v).b21 i j) st) st) (0, fun _ => 0)

/-- `CdnDBCxIn_1d`, tdympfao.c 1326-1332. -/
def packDn (v : Vtx) : Nat × (Nat → ℝ) :=
  forN (nIn v) (fun j st => forN (nDirDn v) (fun i st => push ((cDn v).b21 i j) st) st) (0, fun _ => 0)

open Classical in
/-- `ComputeAinvB`, tdympfao.c 1078-1107: LAPACK's `getrf` and `getrs` on column-major buffers.  The
factorisation fails exactly on singular matrices. -/
noncomputable def solve (m n : Nat) (A B : Nat → ℝ) : Option (Nat → ℝ) :=
  let Am : Matrix (Fin m) (Fin m) ℝ := fun r c => A (c*m + r)
  let Bm : Matrix (Fin m) (Fin n) ℝ := fun r j => B (j*m + r)
  if Am.det = 0 then none
  else some fun k => if h : k % m < m ∧ k / m < n then (Am⁻¹ * Bm) ⟨k % m, h.1⟩ ⟨k / m, h.2⟩ else B k

/-- `ComputeCtimesAinvB`, tdympfao.c 1109-1124: BLAS's `gemm` on column-major buffers, `C` with `m` rows
and `k` columns, `X` with `k` rows. -/
def gemm (m k : Nat) (C X : Nat → ℝ) : Nat → ℝ :=
  fun idx => ∑ c ∈ Finset.range k, C (c*m + idx % m) * X (idx / m * k + c)

/-- tdympfao.c 1376-1389: the rows of the internal fluxes. -/
def unpackIn (v : Vtx) (CA : Nat → ℝ) (T : Nat → Nat → ℝ) : Nat × (Nat → Nat → ℝ) :=
  forN (v.npcen + nDir v) (fun j st =>
    let st := forN (nIn v) (fun i st =>
      (st.1 + 1, wr2 st.2 i j (if j < v.npcen then CA st.1 - (fUp v).b1 i j
        else CA st.1 + (cUp v).b12 i (j - v.npcen)))) st
    (st.1 + nNeu v, st.2)) (0, T)

/-- tdympfao.c 1393-1403: the rows of the boundary fluxes with the cell on the up side. -/
def unpackUp (v : Vtx) (CA : Nat → ℝ) (T : Nat → Nat → ℝ) : Nat × (Nat → Nat → ℝ) :=
  forN (v.npcen + nDir v) (fun j st => forN (nDirUp v) (fun i st =>
    (st.1 + 1, wr2 st.2 (i + nIn v) j (if j < v.npcen then CA st.1 - (fUp v).b2 i j
      else CA st.1 + (cUp v).b22 i (j - v.npcen)))) st) (0, T)

/-- tdympfao.c 1405-1415: the rows of the boundary fluxes with the cell on the down side. -/
def unpackDn (v : Vtx) (CA : Nat → ℝ) (T : Nat → Nat → ℝ) : Nat × (Nat → Nat → ℝ) :=
  forN (v.npcen + nDir v) (fun j st => forN (nDirDn v) (fun i st =>
    (st.1 + 1, wr2 st.2 (i + nIn v + nDirUp v) j (if j < v.npcen then CA st.1 - (fDn v).b2 i j
      else CA st.1 + (cDn v).b22 i (j - v.npcen)))) st) (0, T)

/-- `ComputeTransmissibilityMatrix_ForNonCornerVertex`, tdympfao.c 1126-1415: `Trans[vertex]` after the
call, `T` being what it held before; `none` when the factorisation fails.  The products with the
boundary rows are computed only if there are such rows (1349-1363); without them no entry is read. -/
noncomputable def transBuf (v : Vtx) (T : Nat → Nat → ℝ) : Option (Nat → Nat → ℝ) :=
  (solve (nIn v + nNeu v) (v.npcen + nDir v) (fun k => ((packA v).2 k).1) (packB v).2).map fun X =>
    (unpackDn v (gemm (nDirDn v) (nIn v) (packDn v).2 X)
      (unpackUp v (gemm (nDirUp v) (nIn v) (packUp v).2 X)
        (unpackIn v (gemm (nIn v + nNeu v) (nIn v + nNeu v) (fun k => ((packA v).2 k).2) X) T).2).2).2

end TDy.Mpfao.Buf
