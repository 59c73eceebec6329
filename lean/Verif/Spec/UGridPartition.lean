import Verif.Spec.UGrid
import Verif.Model.UGridPartition

/-!
# Specification: importing a mesh, the partition
-/

namespace TDy.UGrid.Spec

/-- The ranks have read the mesh `m`: consecutive ranges of its cells, all of them, and for these the
vertices and the neighbours. -/
structure Reads (f : Reading) (m : Mesh) : Prop where
  file0 : f.fileOff 0 = 0
  fileMono : ∀ r, f.fileOff r ≤ f.fileOff (r + 1)
  fileEnd : f.fileOff f.ranks = m.nCells
  packs : ∀ r < f.ranks,
    Packs m f.L (f.fileOff r) (f.fileOff (r + 1) - f.fileOff r) (f.cv r) (f.ia r) (f.ja r)
  sort : Sorts f.sort
  mesh : m.Ok f.L

/-- The partitioner has given every cell a rank that exists. -/
def Assigned (f : Reading) (m : Mesh) (rankOf : Nat → Nat) : Prop := ∀ c < m.nCells, rankOf c < f.ranks

end TDy.UGrid.Spec
