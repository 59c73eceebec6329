import Verif.Model.MeshConn

/-!
# Incidence relations of a mesh
-/

namespace TDy.Mesh.Spec

/-- The vertices among the points of a closure, in order. -/
def vertsOf : List Point → List Nat
  | [] => []
  | .vertex v :: rest => v :: vertsOf rest
  | _ :: rest => vertsOf rest

/-- The faces among the points of a closure, in order. -/
def facesOf : List Point → List Nat
  | [] => []
  | .face f :: rest => f :: facesOf rest
  | _ :: rest => facesOf rest

/-- The occurrences of `v` in a list of vertices of cell `c`, as pairs (cell, position). -/
def occurrences (c : Nat) (l : List Nat) (v : Nat) : List (Nat × Nat) :=
  (l.zipIdx.filter (fun p => decide (p.1 = v))).map (fun p => (c, p.2))

/-- All pairs (cell, position) such that the cell lists `v` at that position, by increasing cell. -/
def cellsAt (m : Plex) (n v : Nat) : List (Nat × Nat) :=
  (List.range n).flatMap (fun c => occurrences c (vertsOf (m.closure c)) v)

/-- The cells that list face `f`, by increasing cell. -/
def cellsBehind (m : Plex) (n f : Nat) : List Nat :=
  (List.range n).flatMap
    (fun c => ((facesOf (m.closure c)).filter (fun g => decide (g = f))).map (fun _ => c))

/-- The faces that have `v` as a corner, by increasing face. -/
def facesAt (m : Plex) (n v : Nat) : List Nat :=
  (List.range n).filter (fun f => decide (v ∈ m.faceVerts f))

/-- The faces on the boundary (not between two cells) that have `v` as a corner. -/
def boundaryAt (m : Plex) (n v : Nat) : List Nat :=
  (List.range n).filter (fun f => decide (v ∈ m.faceVerts f ∧ m.supportSize f ≠ 2))

/-- The first `k` entries of an array. -/
def entries {α : Type} (a : Nat → α) (k : Nat) : List α := (List.range k).map a

end TDy.Mesh.Spec

namespace TDy.Mesh.Spec

/-- The number of boundary faces before `f`. -/
def boundaryBefore (internal : Nat → Bool) (f : Nat) : Nat :=
  ((List.range f).filter (fun g => !internal g)).length

end TDy.Mesh.Spec
