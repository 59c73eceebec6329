import Verif.Model.Pflotran

/-!
# Meshes in PFLOTRAN format: what a user expects
-/

namespace TDy.Pflotran.Spec

open TDy TDy.Pflotran

/-- What a user may ask for a material property: one value, or a function of the place. -/
inductive Asked where
  | value (v : ℝ)
  | function (f : (Fin 3 → ℝ) → ℝ)

/-- The function the library is given for it. -/
def Asked.fn : Asked → Fn
  | value v => constant v
  | function f => spatial f

/-- The value the user expects at a place. -/
def Asked.at : Asked → (Fin 3 → ℝ) → ℝ
  | value v, _ => v
  | function f, x => f x

/-- The unknowns of a cell: the pressure; with the temperature, the concentration of salt or the mass of
water (DAE form) there are two. -/
def unknowns : Mode → Disc → Nat
  | .richards, .mpfaODae => 2
  | .richards, _ => 1
  | .th, _ => 2
  | .salinity, _ => 2

/-- The mesh can be used: reading it and setting up succeed, cells have the unknowns of the mode and
every property a user asks for has the value they asked for at the centroid of each cell. -/
def Usable (m : Mode) (d : Disc) (asked : Key → Option Asked) (centroids : Nat → Fin 3 → ℝ) (n : Nat) : Prop :=
  ∃ v, prepare m d (fun k => (asked k).map Asked.fn) centroids n = .ok (unknowns m d, v) ∧
    ∀ k a, asked k = some a → ∀ i < n, v k i = a.at (centroids i)

end TDy.Pflotran.Spec
