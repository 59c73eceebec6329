import Verif.Model.MeshQuery

/-!
# What the questions about a mesh mean
-/

namespace TDy.MeshQuery

/-- A face is listed for a cell. -/
def HasFace (m : Mesh) (c : Nat) (f : Int) : Prop :=
  ∃ p, m.faceOffset c ≤ p ∧ p < m.faceOffset (c + 1) ∧ m.faceIds p = f

/-- An edge is listed for a face. -/
def HasEdge (m : Mesh) (f : Nat) (e : Int) : Prop :=
  ∃ p, p < m.numEdges f ∧ m.edgeIds (m.edgeOffset f + p) = e

/-- The natural numbers of the cells the process owns, in the order of the cells. -/
def ownedNaturalIds (m : Mesh) : List Int :=
  ((List.range m.numCells).filter m.isLocal).map m.naturalId

/-- The numbers given back in an array with their count. -/
def answer (r : Nat × (Nat → Int)) : List Int := (List.range r.1).map r.2

end TDy.MeshQuery
