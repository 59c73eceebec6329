import Verif.Model.MeshTraverse

/-!
# How cells and faces lie around a vertex

Two cells are neighbours if they have a face in common.  The cells on one level around a vertex
form a ring (the vertex is inside the domain, seen from above) or a chain (the vertex lies on a
side of the domain).  Cells above and below the vertex stand on each other in columns.
-/

namespace TDy.Traverse.Spec

open Classical

/-- The two cells have a face in common. -/
def Neighbours (m : TMesh) (c d : Nat) : Prop := ∃ f, f ∈ m.cellFaces c ∧ f ∈ m.cellFaces d

/-- Different cells, of which exactly those that follow each other are neighbours. -/
structure Chain (m : TMesh) (l : List Nat) : Prop where
  nonempty : l ≠ []
  nodup : l.Nodup
  next : ∀ i j c d, i < j → l[i]? = some c → l[j]? = some d → (Neighbours m c d ↔ j = i + 1)

/-- At least three different cells, of which exactly those that follow each other, and the last and
the first, are neighbours. -/
structure Ring (m : TMesh) (l : List Nat) : Prop where
  three : 3 ≤ l.length
  nodup : l.Nodup
  next : ∀ i j c d, i < j → l[i]? = some c → l[j]? = some d →
    (Neighbours m c d ↔ j = i + 1 ∨ (i = 0 ∧ j + 1 = l.length))

/-- The cell is on one of the two sides of the face. -/
def Side (m : TMesh) (x c : Nat) : Prop := (m.faceCells x).1 = (c : ℤ) ∨ (m.faceCells x).2 = (c : ℤ)

/-- `w` lies straight above or below `v` (up to a distance of 1e-7). -/
def Plumb (m : TMesh) (v w : Nat) : Prop :=
  ((m.coord v).x - (m.coord w).x) ^ 2 + ((m.coord v).y - (m.coord w).y) ^ 2 < 1 / 10 ^ 14

/-- A face that contains a vertical edge at `v`. -/
def Upright (m : TMesh) (v x : Nat) : Prop := ∃ w ∈ m.faceVerts x, w ≠ v ∧ Plumb m v w

/-- The upright boundary faces that a cell has at the vertex. -/
noncomputable def uprightOf (m : TMesh) (v c : Nat) : List Nat :=
  (m.vBnd v).filter fun x => decide (Side m x c ∧ Upright m v x)

/-- The other (top or bottom) boundary faces that a cell has at the vertex. -/
noncomputable def flatOf (m : TMesh) (v c : Nat) : List Nat :=
  (m.vBnd v).filter fun x => decide (Side m x c ∧ ¬ Upright m v x)

/-- A chain whose first cell has one upright boundary face towards the outside, and so has its last,
while the cells between have none.  (A chain of a single cell has two.) -/
structure Ended (m : TMesh) (v : Nat) (l : List Nat) : Prop extends Chain m l where
  ends : ∀ i c, l[i]? = some c → (uprightOf m v c).length
    = (if i = 0 then 1 else 0) + (if i + 1 = l.length then 1 else 0)

/-- Twice the signed area, seen from above, of the triangle of `a`, `b` and `c`: positive if they
follow each other anticlockwise. -/
def turn (a b c : Geo.P3) : ℝ := (b.x - a.x) * (c.y - a.y) - (b.y - a.y) * (c.x - a.x)

/-- Walking along the list, from the centre of a cell through the centre of the face in common to the
centre of the next cell, one turns around `v` in the sense of `s` (1: anticlockwise, -1:
clockwise). -/
def Turning (m : TMesh) (v : Nat) (l : List Nat) (s : ℝ) : Prop :=
  ∀ i c d x : Nat, l[i]? = some c → l[i + 1]? = some d → x ∈ m.vFaces v → Side m x c → Side m x d →
    0 < s * turn (m.coord v) (m.cellCen c) (m.faceCen x) ∧
    0 < s * turn (m.coord v) (m.faceCen x) (m.cellCen d)

/-- The tables of the mesh around vertex `v` describe cells that have three faces each at the vertex,
where no two cells share two faces. -/
structure Around (m : TMesh) (v : Nat) : Prop where
  cells_nodup : (m.vCells v).Nodup
  faces_nodup : (m.vFaces v).Nodup
  bnd_nodup : (m.vBnd v).Nodup
  /-- the boundary faces of the vertex are those of its faces that are not internal -/
  bnd : ∀ x, x ∈ m.vBnd v ↔ x ∈ m.vFaces v ∧ m.faceInternal x = false
  /-- an internal face has two of the cells on its sides -/
  internal : ∀ x ∈ m.vFaces v, m.faceInternal x = true →
    ∃ c ∈ m.vCells v, ∃ d ∈ m.vCells v, c ≠ d ∧ m.faceCells x = ((c : ℤ), (d : ℤ))
  /-- a boundary face has one -/
  boundary : ∀ x ∈ m.vFaces v, m.faceInternal x = false →
    ∃ c ∈ m.vCells v, ∃ k : ℤ, k < 0 ∧ (m.faceCells x = ((c : ℤ), k) ∨ m.faceCells x = (k, (c : ℤ)))
  /-- a cell on a side of a face has it among its faces -/
  listed : ∀ x ∈ m.vFaces v, ∀ c ∈ m.vCells v, Side m x c → x ∈ m.cellFaces c
  /-- two neighbours have exactly one of the faces of the vertex in common -/
  shared : ∀ c ∈ m.vCells v, ∀ d ∈ m.vCells v, c ≠ d → Neighbours m c d →
    ∃ x ∈ m.vFaces v, Side m x c ∧ Side m x d
  single : ∀ x ∈ m.vFaces v, ∀ y ∈ m.vFaces v, ∀ c d : Nat, c ≠ d → Side m x c → Side m x d →
    Side m y c → Side m y d → x = y
  /-- the subcell of a cell has the three faces that the cell has at the vertex -/
  sub : ∀ i c f, (m.vCells v)[i]? = some c → f < 3 →
    m.subFace v i f ∈ m.vFaces v ∧ Side m (m.subFace v i f) c
  sub_onto : ∀ i c x, (m.vCells v)[i]? = some c → x ∈ m.vFaces v → Side m x c →
    ∃ f < 3, m.subFace v i f = x
  sub_inj : ∀ i c f f', (m.vCells v)[i]? = some c → f < 3 → f' < 3 →
    m.subFace v i f = m.subFace v i f' → f = f'
  /-- no vertex has more faces than the mesh knows of -/
  room : (m.vFaces v).length ≤ m.maxVertexFaces

/-- The cells around the vertex stand in columns: `A` above it and `B` below it, one of which may be
empty.  In the interior they form rings; on a side of the domain they form chains that end at
upright boundary faces.  On both levels cell `i` of the one stands on cell `i` of the other; without
a second level each cell has one flat boundary face instead. -/
structure Layered (m : TMesh) (v : Nat) (A B : List Nat) : Prop where
  cells : (A ++ B).Perm (m.vCells v)
  several : 2 ≤ (m.vCells v).length
  sides : ((A = [] ∨ Ring m A) ∧ (B = [] ∨ Ring m B) ∧ ∀ x ∈ m.vBnd v, ¬ Upright m v x) ∨
    ((A = [] ∨ Ended m v A) ∧ (B = [] ∨ Ended m v B))
  stacked : A ≠ [] → B ≠ [] → A.length = B.length ∧
    ∀ i j c d : Nat, A[i]? = some c → B[j]? = some d → (Neighbours m c d ↔ i = j)
  oneLevel : A = [] ∨ B = [] → ∀ c ∈ m.vCells v, (flatOf m v c).length = 1
  twoLevels : A ≠ [] → B ≠ [] → ∀ x ∈ m.vBnd v, Upright m v x

/-- The number of a cell and of a boundary face in the numbering of the vertex: first the cells, then
the boundary faces. -/
def cellNo (m : TMesh) (v c : Nat) : ℤ := ((m.vCells v).idxOf c : ℤ)
def faceNo (m : TMesh) (v x : Nat) : ℤ := ((m.vCells v).length + (m.vBnd v).idxOf x : ℤ)

/-- The connection joins what lies on the two sides of the face: two cells, or a cell and the
boundary face itself. -/
def Joins (m : TMesh) (v x : Nat) (p : ℤ × ℤ) : Prop :=
  (∃ c d : Nat, c ≠ d ∧ Side m x c ∧ Side m x d ∧ p = (cellNo m v c, cellNo m v d)) ∨
  (m.faceInternal x = false ∧ ∃ c : Nat, Side m x c ∧
    (p = (cellNo m v c, faceNo m v x) ∨ p = (faceNo m v x, cellNo m v c)))

/-- A list of connections that has each face of the vertex exactly once, the connections between
cells before those to boundary faces. -/
structure ConnectsOnce (m : TMesh) (v : Nat) (l : List (ℤ × ℤ)) : Prop where
  sound : ∀ p ∈ l, ∃ x ∈ m.vFaces v, Joins m v x p
  once : ∀ x ∈ m.vFaces v, ∃! i : Nat, ∃ p, l[i]? = some p ∧ Joins m v x p
  cellsFirst : ∀ (i j : Nat) (p q : ℤ × ℤ), i < j → l[i]? = some p → l[j]? = some q →
    (q.1 < (m.vCells v).length ∧ q.2 < (m.vCells v).length) →
    (p.1 < (m.vCells v).length ∧ p.2 < (m.vCells v).length)

/-! ### Meshes of vertical prisms -/

/-- `w` is the other end of a vertical edge that cell `c` has at `v`. -/
structure Edge (m : TMesh) (v c w : Nat) : Prop where
  vertex : w ∈ m.cellVerts c
  other : w ≠ v
  plumb : Plumb m v w

/-- The cell stands above `v`. -/
def Over (m : TMesh) (v c : Nat) : Prop := ∃ w, Edge m v c w ∧ (m.coord v).z < (m.coord w).z

/-- The cells of `v` above and below it. -/
noncomputable def overs (m : TMesh) (v : Nat) : List Nat :=
  (m.vCells v).filter fun c => decide (Over m v c)
noncomputable def unders (m : TMesh) (v : Nat) : List Nat :=
  (m.vCells v).filter fun c => decide (¬ Over m v c)

/-- A vertex that is set up on this process. -/
def LocalVertex (m : TMesh) (v : Nat) : Prop := v < m.numVertices ∧ m.isLocal v = true

/-- The cells are prisms with vertical edges that stand on each other in columns. -/
structure Columnar (m : TMesh) : Prop where
  /-- every vertex that is set up has cells -/
  cells : ∀ v, LocalVertex m v → m.vCells v ≠ []
  /-- each of its cells has exactly one vertical edge there -/
  edge : ∀ v, LocalVertex m v → ∀ c ∈ m.vCells v, ∃ w < m.numVertices, Edge m v c w ∧
    (m.coord w).z ≠ (m.coord v).z ∧ ∀ w', Edge m v c w' → w' = w
  /-- all cells above it have the same edge, and all cells below it -/
  level : ∀ v, LocalVertex m v → ∀ c ∈ m.vCells v, ∀ c' ∈ m.vCells v, ∀ w w', Edge m v c w →
    Edge m v c' w' → ((m.coord v).z < (m.coord w).z ↔ (m.coord v).z < (m.coord w').z) → w = w'
  /-- an edge is seen from both of its ends -/
  both : ∀ v w, LocalVertex m v → LocalVertex m w → ∀ c ∈ m.vCells v, Edge m v c w →
    c ∈ m.vCells w ∧ Edge m w c v
  /-- two faces of a cell meet in the edge -/
  faces : ∀ v, LocalVertex m v → ∀ c ∈ m.vCells v, ∀ w, Edge m v c w →
    ((m.cellFaces c).filter fun f => decide (v ∈ m.faceVerts f ∧ w ∈ m.faceVerts f)).length = 2
  corners : ∀ f, (m.faceVerts f).Nodup
  /-- the faces of a cell at a vertex are faces of the vertex -/
  incident : ∀ v, LocalVertex m v → ∀ c ∈ m.vCells v, ∀ f ∈ m.cellFaces c, v ∈ m.faceVerts f →
    f ∈ m.vFaces v ∧ Side m f c
  /-- around a vertex with several cells they lie in columns -/
  around : ∀ v, LocalVertex m v → 2 ≤ (m.vCells v).length → Around m v
  layered : ∀ v, LocalVertex m v → 2 ≤ (m.vCells v).length →
    ∃ A B, Layered m v A B ∧ A.Perm (overs m v) ∧ B.Perm (unders m v)

end TDy.Traverse.Spec
