import Verif.Model.Memory
import Mathlib.Data.Finset.Card
import Mathlib.Data.Finset.Range

/-!
# What releasing memory should mean

Independent of the allocation and release functions: which blocks an object holds, and what is left on
the heap.
-/

namespace TDy.Mem.Spec

open TDy TDy.Mem

/-- Blocks that were never handed out are not live. -/
def Fresh (h : Heap) : Prop := ∀ b, h.next ≤ b → h.live b = false

/-- Block `b` is part of the object: it is its own block, or part of one of its entries. -/
inductive Owns : Obj → Nat → Prop where
  | leaf (b : Nat) : Owns (.leaf (some b)) b
  | base (b : Nat) (cap : Nat) (e : Nat → Obj) : Owns (.node (some b) cap e) b
  | entry (p : Ptr) (cap : Nat) (e : Nat → Obj) (i : Nat) (b : Nat) (hi : i < cap)
      (ho : Owns (e i) b) : Owns (.node p cap e) b

/-- The two heaps hold the same blocks. -/
def SameLive (h h' : Heap) : Prop := ∀ b, h'.live b = h.live b

/-- The call ends without undefined behaviour and leaves the blocks that were there before it, no more
and no fewer. -/
def ReleasesAll (f : Heap → Res Heap) : Prop :=
  ∀ h, Fresh h → ∃ h', f h = .ok h' ∧ SameLive h h' ∧ Fresh h'

/-- Releasing the object, at any later time at which all its blocks are live, ends without undefined
behaviour and removes its blocks and no others. -/
def ReleasesExactly (F : Obj → Heap → Res Heap) (o : Obj) : Prop :=
  ∀ g : Heap, (∀ b, Owns o b → g.live b = true) →
    ∃ g', F o g = .ok g' ∧ ∀ b, g'.live b = true ↔ g.live b = true ∧ ¬ Owns o b

/-- The allocation leaves older blocks as they are and makes the blocks of the object live, which were
not live before. -/
def AllocatesOnly (A : Heap → Obj × Heap) (h : Heap) : Prop :=
  (∀ b, (A h).2.live b = true ↔ h.live b = true ∨ Owns (A h).1 b) ∧
  (∀ b, Owns (A h).1 b → h.live b = false)

/-- The number of live blocks. -/
def count (h : Heap) : Nat := ((Finset.range h.next).filter (fun b => h.live b = true)).card

/-- The arrays of MPFA-O that nothing releases: permeability, porosity, conductivity, and six arrays of
faces. -/
def unreleased : List Name :=
  [.K, .K0, .porosity, .Kappa, .Kappa0, .f_bc_type, .f_projected_area, .f_dist, .f_dist_wt_up,
   .f_dist_up_dn, .f_unit_vec_up_dn]

end TDy.Mem.Spec
