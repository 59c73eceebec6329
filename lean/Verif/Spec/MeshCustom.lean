import Verif.Model.MeshCustom
import Mathlib.Data.Finset.Image
import Mathlib.Data.Finset.Card

/-!
# Which faces of an imported mesh coincide, and which cells meet at a vertex

Only the cells with their vertices and their neighbour lists are used, not what the code computes from them.
-/

namespace TDy.Custom.Spec

open TDy.Custom TDy.Topology

/-- The cells that have vertex `v` as a corner, in increasing order. -/
def cellsAt (u : UG) (v : Int) : List Nat :=
  (List.range u.ng).flatMap (fun i => ((List.range (u.nv i)).filter (fun k => u.cv i k = v)).map (fun _ => i))

/-- The vertices of face `k` of cell `i`, as a set. -/
def faceSet (u : UG) (i k : Nat) : Finset Int :=
  ((u.corners i k).map (u.cv i)).toFinset

/-- Cells `i` and `j` have a face in common. -/
def Share (u : UG) (i j : Nat) : Prop :=
  ∃ k l, k < u.nf i ∧ l < u.nf j ∧ faceSet u i k = faceSet u j l

/-- A mesh of tetrahedra, pyramids, wedges and hexahedra in which two cells have at most one face in common, at most two
cells have a given face, and the neighbours of an owned cell are the cells it has a face in common with. -/
structure Conforming (u : UG) : Prop where
  /-- The owned cells come first. -/
  owned : u.nl ≤ u.ng
  /-- A known cell type. -/
  types : ∀ i < u.ng, u.nv i = 4 ∨ u.nv i = 5 ∨ u.nv i = 6 ∨ u.nv i = 8
  /-- The corners of a cell are different vertices. -/
  distinct : ∀ i < u.ng, ∀ k < u.nv i, ∀ l < u.nv i, u.cv i k = u.cv i l → k = l
  /-- Neighbours are cells of the rank, other than the cell itself. -/
  range : ∀ i < u.nl, ∀ d < u.nnb i, (u.nb i d).natAbs < u.ng ∧ (u.nb i d).natAbs ≠ i
  /-- No neighbour is listed twice. -/
  once : ∀ i < u.nl, ∀ d < u.nnb i, ∀ e < u.nnb i, (u.nb i d).natAbs = (u.nb i e).natAbs → d = e
  /-- Exactly the cells with a common face are neighbours. -/
  sound : ∀ i < u.nl, ∀ d < u.nnb i, Share u i (u.nb i d).natAbs
  complete : ∀ i < u.nl, ∀ j < u.ng, j ≠ i → Share u i j → ∃ d < u.nnb i, (u.nb i d).natAbs = j
  /-- Two cells have at most one face in common. -/
  single : ∀ i < u.ng, ∀ j < u.ng, i ≠ j → ∀ k < u.nf i, ∀ k' < u.nf i, ∀ l < u.nf j, ∀ l' < u.nf j,
    faceSet u i k = faceSet u j l → faceSet u i k' = faceSet u j l' → k = k' ∧ l = l'
  /-- A face belongs to at most two cells. -/
  two : ∀ i < u.ng, ∀ j < u.ng, ∀ c < u.ng, i ≠ j → j ≠ c → i ≠ c → ∀ k < u.nf i, ∀ l < u.nf j, ∀ m < u.nf c,
    faceSet u i k = faceSet u j l → faceSet u j l ≠ faceSet u c m

/-- `N` faces, numbered once: `c2f k i` is the number of face `k` of cell `i`, `f2v` holds the vertices of a face and `f2c`
its one or two cells. -/
structure NumberedOnce (u : UG) (N : Nat) (c2f f2v f2c : Nat → Nat → Int) : Prop where
  /-- Numbers lie in 0..N-1, and every number is used. -/
  range : ∀ i < u.ng, ∀ k < u.nf i, 0 ≤ c2f k i ∧ c2f k i < N
  onto : ∀ n < N, ∃ i k, i < u.ng ∧ k < u.nf i ∧ c2f k i = n
  /-- Two faces, one of them of an owned cell, have the same number exactly if they are the same set of vertices. -/
  same : ∀ i < u.ng, ∀ k < u.nf i, ∀ j < u.ng, ∀ l < u.nf j, (i < u.nl ∨ j < u.nl) →
    (c2f k i = c2f l j ↔ faceSet u i k = faceSet u j l)
  /-- Faces with the same number are always the same set of vertices. -/
  faithful : ∀ i < u.ng, ∀ k < u.nf i, ∀ j < u.ng, ∀ l < u.nf j, c2f k i = c2f l j → faceSet u i k = faceSet u j l
  /-- The vertices stored for a number are those of the face. -/
  vertices : ∀ i < u.ng, ∀ k < u.nf i, ∀ x : Int,
    (∃ v < u.nvf i k, f2v v (c2f k i).toNat = x) ↔ x ∈ faceSet u i k
  /-- The cells stored for a number are those with a face of that number. -/
  cells : ∀ n < N, ∀ i < u.ng, (∃ e < 2, f2c e n = (i : Int)) ↔ ∃ k < u.nf i, c2f k i = n

/-- The neighbour list of owned cell `i` names ghosts by a negative number and owned cells by their own. -/
def Marked (u : UG) : Prop := ∀ i < u.nl, ∀ d < u.nnb i, u.nb i d < 0 → u.nl ≤ (u.nb i d).natAbs

end TDy.Custom.Spec
