import Verif.Model.MeshTables

/-!
# What a caller expects of the connectivity tables
-/

namespace TDy.Mesh.Spec

/-- Before the squeeze: the entries recorded for entity `e`, in the `size` slots reserved for it. -/
def recorded {α : Type} (ids : Nat → α) (size : Nat) (num : Nat → Nat) (e : Nat) : List α :=
  (List.range (num e)).map (fun k => ids (e * size + k))

/-- A table as the allocation and connectivity routines leave it: `size` slots per entity, at most
`size` of them used. -/
structure Loose {α : Type} (n size : Nat) (t : Table α) : Prop where
  layout : ∀ e < n, t.off e = ((e * size : Nat) : Int)
  room : ∀ e < n, t.num e ≤ size

/-- The accessors of a table are sound: each entity's slice has the recorded entries, the slices of
different entities do not overlap, and every slice lies inside the array of `n * size` entries. -/
structure Sound {α : Type} (n size : Nat) (before : Table α) (off : Nat → Int) (ids : Nat → α) :
    Prop where
  entries : ∀ e < n, readSlice ids (access off e) = recorded before.ids size before.num e
  counts : ∀ e < n, (access off e).count = before.num e
  disjoint : ∀ e e', e < e' → e' < n →
    (access off e).start + (access off e).count ≤ (access off e').start
  inside : ∀ e < n, 0 ≤ (access off e).start ∧
    (access off e).start + (access off e).count ≤ ((size * n : Nat) : Int)

end TDy.Mesh.Spec
