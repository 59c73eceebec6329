import Verif.Model.MeshFaceGeom
import Verif.Model.MeshFaceOrient
import Verif.Model.MeshTraverse
import Verif.Model.Subcells
import Verif.Model.MpfaoTpf
import Verif.Model.MpfaoVelocity
import Verif.Model.MpfaoCoupled

/-!
# The same mesh at another place

All points of a mesh are moved by the same vector; everything else stays as it is.
-/

namespace TDy.Geo.Spec

/-- The point `p`, moved by `d`. -/
def shift (d p : P3) : P3 := ⟨p.x + d.x, p.y + d.y, p.z + d.z⟩

/-- A mesh as the search for the order of cells around vertices reads it, moved by `d`. -/
def shiftT (d : P3) (m : Traverse.TMesh) : Traverse.TMesh :=
  { m with
    coord := fun v => shift d (m.coord v)
    cellCen := fun c => shift d (m.cellCen c)
    faceCen := fun f => shift d (m.faceCen f) }

/-- A mesh as the set up of the subcells reads it, moved by `d`. -/
def shiftS (d : P3) (m : Subcells.Mesh) : Subcells.Mesh :=
  { m with
    coord := fun v => shift d (m.coord v)
    cellCen := fun c => shift d (m.cellCen c)
    fCen := fun f => shift d (m.fCen f) }

/-- A mesh as the gravity coefficients and the two-point matrices read it, moved by `d`. -/
def shiftG (d : P3) (m : Mpfao.GravCtx) : Mpfao.GravCtx :=
  { m with
    cellCen := fun c => shift d (m.cellCen c)
    faceCen := fun f => shift d (m.faceCen f) }

/-- The tables of the subcells of a mesh and of the moved mesh: the same numbers, areas, vectors and
volumes; the points where they are set have moved along. -/
structure Moved (d : P3) (t t' : Subcells.Tables) : Prop where
  faceIds : t'.faceIds = t.faceIds
  vertexIds : t'.vertexIds = t.vertexIds
  faceArea : t'.faceArea = t.faceArea
  nu : t'.nu = t.nu
  T : t'.T = t.T
  points : ∀ k, t'.contin k = shift d (t.contin k) ∨
    (t.contin k = ⟨0, 0, 0⟩ ∧ t'.contin k = ⟨0, 0, 0⟩)

/-- Both set ups end in undefined behaviour, or both give tables that agree but for the place. -/
def MovedRes (d : P3) : Res Subcells.Tables → Res Subcells.Tables → Prop
  | .ok t, .ok t' => Moved d t t'
  | .ub, .ub => True
  | _, _ => False

/-- What velocities are recovered from, for gravity `g` and cells with centroids `cen`. -/
noncomputable def placed (m : Mpfao.VelIn) (g : P3) (cen : Nat → P3) : Mpfao.VelIn :=
  { m with gz := fun c => Mpfao.gtimesZ g (cen c) }

/-- The TH mode on a mesh raised such that gravity times height grows by `h`. -/
def raised (h : ℝ) (t : Mpfao.Th) : Mpfao.Th :=
  { t with heat := fun c => { t.heat c with gz := (t.heat c).gz + h } }

end TDy.Geo.Spec
