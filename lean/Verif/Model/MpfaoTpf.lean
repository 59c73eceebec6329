import Verif.Model.MpfaoGravity
import Verif.Model.MpfaoTrans

/-!
# MPFA-O: the two-point option

Models `ComputeGMatrix_TPF` and `ComputeGMatrix` (`src/fv/mpfao/tdympfao.c` lines 128-295), the
`nu_star` vectors they use (`src/fv/share/tdymeshplex.c` lines 2994-3033) and `TDyComputeLength`
(`src/tdyutils.c` lines 239-248).  The matrices replace those of `gMatrix`; the transmissibilities are
then computed by the same code (`Verif.Model.MpfaoTrans`).
-/

namespace TDy.Mpfao

noncomputable section

/-- tdyutils.c 239-248, `TDyComputeLength`; `pow(x, 0.5)` is the square root. -/
def lengthOf (p q : Geo.P3) : ℝ :=
  Real.sqrt (0.0 + (p.x - q.x)^2 + (p.y - q.y)^2 + (p.z - q.z)^2)

/-- tdympfao.c 210-214: what the face `f` of cell `c` lists on its other side. -/
def tpfOther (m : GravCtx) (c f : Nat) : ℤ :=
  if (m.face f).up = c then (m.face f).dn else (m.face f).up

/-- tdympfao.c 219-230: `neighbor_cell_cen`, the centroid of the neighbour or of the boundary face. -/
def tpfPoint (m : GravCtx) (c f : Nat) : Geo.P3 :=
  if 0 ≤ tpfOther m c f then m.cellCen (tpfOther m c f).toNat else m.faceCen f

/-- tdympfao.c 221-222, 231: `dist`, half of the distance to a neighbour or the distance to the
boundary face. -/
def tpfDist (m : GravCtx) (c f : Nat) : ℝ :=
  if 0 ≤ tpfOther m c f then lengthOf (tpfPoint m c f) (m.cellCen c)*0.50
  else lengthOf (tpfPoint m c f) (m.cellCen c)

/-- tdympfao.c 224-228, 232-236: the cell whose tensor is `K_neighbor`. -/
def tpfCell (m : GravCtx) (c f : Nat) : Nat :=
  if 0 ≤ tpfOther m c f then (tpfOther m c f).toNat else c

/-- tdympfao.c 241: `normal_up2dn`, the direction from the neighbour to the cell. -/
def tpfDir (m : GravCtx) (c f : Nat) : Geo.P3 := Geo.unitJoin (tpfPoint m c f) (m.cellCen c)

/-- tdympfao.c 238, 244-251: `K_aveg`. -/
def tpfPerm (m : GravCtx) (c f : Nat) : ℝ :=
  0.5*dirPerm (extractK m.K0 c) (tpfDir m c f) +
    0.5*dirPerm (extractK m.K0 (tpfCell m c f)) (tpfDir m c f)

/-- tdympfao.c 253: the entry of face `f`, of which the subcell has the area `area`. -/
def tpfEntry (m : GravCtx) (area : ℝ) (c f : Nat) : ℝ :=
  area*Geo.dot (m.normal f) (tpfDir m c f)*tpfPerm m c f/tpfDist m c f

/-- `subc_Gmatrix[icell][isubcell][ii][jj]` as set by `ComputeGMatrix_TPF`, tdympfao.c 128-274; `face`
are the faces of the subcell and `area` its share of each face. -/
def tpfG (m : GravCtx) (area : Nat → ℝ) (c : Nat) (face : Nat → Nat) (ii jj : Nat) : ℝ :=
  if ii ≠ jj then 0.0 else tpfEntry m (area (face ii)) c (face ii)

/-- tdymeshplex.c 2994-3033: `nu_star_vectors[iface]` of a subcell with `T = volume*6`: the same number
in every component. -/
def nuStar (m : GravCtx) (T : ℝ) (c f : Nat) : Geo.P3 :=
  let s := Geo.dot (m.normal f) (tpfDir m c f)*T/tpfDist m c f
  ⟨s, s, s⟩

/-- `Temp_subc_Gmatrix[icell][isubcell][ii][jj]` as set by `ComputeGMatrix_TPF`, tdympfao.c 256-265, from
the thermal conductivity `Kappa0`. -/
def tpfTempG (m : GravCtx) (Kappa0 : Nat → ℝ) (area : Nat → ℝ) (c : Nat) (face : Nat → Nat) (T : ℝ)
    (ii jj : Nat) : ℝ :=
  if ii = jj then
    entryOfG (area (face ii)) (m.normal (face ii)) (fun a b => Kappa0 (c*9 + a*3 + b))
      (nuStar m T c (face ii)) T
  else 0.0

end

end TDy.Mpfao
