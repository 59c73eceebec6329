import Verif.Model.Geometry

/-!
# Orientation of the faces

Models `src/fv/share/tdymeshplex.c` lines 3061-3172 (`UpdateCellOrientationAroundAFace`, in three
dimensions), and the numbers of the parts of a face: 3345-3354, 1697-1709.
-/

namespace TDy.FaceOrient

open Classical

/-- What is stored about a face: `vertex_ids`, `cell_ids` (negative outside the domain) and
`normal`. -/
structure Face where
  verts : List Nat
  cells : ℤ × ℤ
  normal : Geo.P3

/-- tdymeshplex.c 3093-3113: the last two vertices of a quadrilateral are swapped if the triangles of
its first and of its last three vertices are oriented differently. -/
noncomputable def order (x : Nat → Geo.P3) (l : List Nat) : List Nat :=
  match l with
  | [a, b, c, d] =>
    if Geo.dot (Geo.unitNormalTriangle (x a) (x b) (x c)) (Geo.unitNormalTriangle (x b) (x c) (x d)) < 0.0
    then [a, b, d, c] else [a, b, c, d]
  | l => l

/-- tdymeshplex.c 3119-3123: the normal of the vertices in their order; for other than three or four
vertices the code reads `v3` or `v4` without having set them. -/
noncomputable def listNormal (x : Nat → Geo.P3) (l : List Nat) : Option Geo.P3 :=
  match l with
  | [a, b, c] => some (Geo.unitNormalTriangle (x a) (x b) (x c))
  | [a, b, c, d] => some (Geo.normalQuad (x a) (x b) (x c) (x d))
  | _ => none

/-- `-v` -/
def neg (n : Geo.P3) : Geo.P3 := ⟨-n.x, -n.y, -n.z⟩

/-- One face of `UpdateCellOrientationAroundAFace`, tdymeshplex.c 3079-3168, for vertex coordinates
`x`, cell centroids `cen` and face centroid `fc`.  `none` is undefined behaviour: a face with other
than three or four vertices, or whose first cell is outside the domain (its centroid is read). -/
noncomputable def orient (x cen : Nat → Geo.P3) (fc : Geo.P3) (f : Face) : Option Face :=
  let l := order x f.verts
  (listNormal x l).bind fun n =>
    if f.cells.1 < 0 then none
    else
      let cells := if Geo.dot n (Geo.join fc (cen f.cells.1.toNat)) > 0.0 then (f.cells.2, f.cells.1)
        else f.cells
      if cells.2 < 0 then some ⟨l.reverse, (cells.2, cells.1), neg n⟩
      else some ⟨l, cells, n⟩

/-- The position of a vertex in the list of a face: the number of its part of the face, as written
down when the face is read (tdymeshplex.c 3345-3354), after the faces of the vertex have been put in
order (1697-1709), and for the rows of corners (tdympfao.c 1629-1637). -/
def position (l : List Nat) (v : Nat) : Option Nat := l.findIdx? fun w => w == v

/-- `vertices->subface_ids` in the end, for a face with vertices `before` when it was read and `after`
its orientation: written again for local vertices with several cells only (tdymeshplex.c 3045-3049,
1697-1709). -/
def subface (several isLocal : Bool) (before after : List Nat) (v : Nat) : Option Nat :=
  if several && isLocal then position after v else position before v

end TDy.FaceOrient
