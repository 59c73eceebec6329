import Verif.Model.MeshFaceGeom
import Verif.Model.MeshFaceOrient
import Verif.Model.MeshTraverse
import Verif.Model.Subcells
import Verif.Model.MpfaoTpf

/-!
# C219: another unit of length

A mesh whose coordinates are given in another unit of length: all points are multiplied by a positive
number `s`.  Distances should be multiplied by `s`, areas by its square, volumes by its third power;
directions should stay.
-/

namespace TDy.Geo.Spec

noncomputable section

/-- A point in the other unit. -/
def grow (s : ℝ) (p : P3) : P3 := ⟨s * p.x, s * p.y, s * p.z⟩

/-- A mesh as the search for the order of cells around vertices reads it. -/
def growT (s : ℝ) (m : Traverse.TMesh) : Traverse.TMesh :=
  { m with
    coord := fun v => grow s (m.coord v)
    cellCen := fun c => grow s (m.cellCen c)
    faceCen := fun f => grow s (m.faceCen f) }

/-- In both units any two vertices are straight above each other or at least `10^-7` apart horizontally. -/
def Resolved (s : ℝ) (m : Traverse.TMesh) : Prop :=
  ∀ v w, ((m.coord v).x = (m.coord w).x ∧ (m.coord v).y = (m.coord w).y) ∨
    (1 / 10 ^ 14 ≤ ((m.coord v).x - (m.coord w).x) ^ 2 + ((m.coord v).y - (m.coord w).y) ^ 2 ∧
      1 / 10 ^ 14 ≤ s ^ 2 * (((m.coord v).x - (m.coord w).x) ^ 2 + ((m.coord v).y - (m.coord w).y) ^ 2))

/-- A mesh as the set up of the subcells reads it. -/
def growS (s : ℝ) (m : Subcells.Mesh) : Subcells.Mesh :=
  { m with
    coord := fun v => grow s (m.coord v)
    cellCen := fun c => grow s (m.cellCen c)
    fCen := fun f => grow s (m.fCen f)
    area := fun f => s ^ 2 * m.area f }

/-- A mesh as the gravity coefficients and the two-point matrices read it.  Permeabilities and gravity
keep their units. -/
def growG (s : ℝ) (m : Mpfao.GravCtx) : Mpfao.GravCtx :=
  { m with
    cellCen := fun c => grow s (m.cellCen c)
    faceCen := fun f => grow s (m.faceCen f)
    area := fun f => s ^ 2 * m.area f }

/-- What is computed for a face, in the other unit. -/
def growAttr (s : ℝ) (a : FaceGeom.Attr) : FaceGeom.Attr :=
  { distUp := s * a.distUp, distDn := s * a.distDn, unit := a.unit, wtUp := a.wtUp,
    proj := s ^ 2 * a.proj }

/-- The tables of the subcells in the two units. -/
structure Grown (s : ℝ) (t t' : Subcells.Tables) : Prop where
  faceIds : t'.faceIds = t.faceIds
  vertexIds : t'.vertexIds = t.vertexIds
  faceArea : ∀ k, t'.faceArea k = s ^ 2 * t.faceArea k
  nu : ∀ k, t'.nu k = grow (s ^ 2) (t.nu k)
  T : ∀ k, t'.T k = s ^ 3 * t.T k
  contin : ∀ k, t'.contin k = grow s (t.contin k)
  faceCen : ∀ k, t'.faceCen k = grow s (t.faceCen k)

/-- Both set ups end in undefined behaviour, or both give tables that agree but for the unit. -/
def GrownRes (s : ℝ) : Res Subcells.Tables → Res Subcells.Tables → Prop
  | .ok t, .ok t' => Grown s t t'
  | .ub, .ub => True
  | _, _ => False

/-- The flux continuity problem of a vertex with all matrices of its subcells multiplied by `s`. -/
def growV (s : ℝ) (v : Mpfao.Vtx) : Mpfao.Vtx :=
  { v with sub := fun i => { v.sub i with G := fun f k => s * (v.sub i).G f k } }

end

end TDy.Geo.Spec
