import Verif.Model.Output

/-! # Specification: complete output files, fields in natural order -/

namespace TDy.Output.Spec

open TDy TDy.Output

/-- The natural numbers of the cells are a permutation of `0 .. n-1`, the identity on one rank. -/
structure Natural (L : Layout) : Prop where
  lt : ∀ c < L.n, L.nat c < L.n
  inj : ∀ c < L.n, ∀ d < L.n, L.nat c = L.nat d → c = d
  one : L.ranks = 1 → ∀ c < L.n, L.nat c = c

/-- A vector has, at the natural number of every cell, the values of that cell. -/
def InNaturalOrder {α : Type} (L : Layout) (k : Nat) (field : Nat → Nat → α) (v : Vec α) : Prop :=
  v.len = L.n*k ∧ ∀ c < L.n, ∀ j < k, v.val (k*L.nat c + j) = field c j

/-- out.xmf is a header, attributes and one footer. -/
def WellFormed (x : List Item) : Prop :=
  ∃ as : List (String × String), x = .header :: as.map (fun a => .attribute a.1 a.2) ++ [.footer]

/-- Every attribute of out.xmf refers to a data set of out.h5. -/
def Refers {α : Type} (d : Disk α) : Prop :=
  ∀ label name, Item.attribute label name ∈ d.xmf → ∃ v, d.h5.lookup (label, name) = some v

end TDy.Output.Spec
