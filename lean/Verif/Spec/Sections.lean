import Verif.Model.Sections

/-!
The reader's side of C184: where the values of fields are in a vector.
-/

namespace TDy.Sections.Spec

open TDy.Sections

/-- A value: value `k` of field `f` at point `p`. -/
structure Value where
  p : Nat
  f : Nat
  k : Nat

/-- The values a layout has. -/
def Has (s : Section) (v : Value) : Prop :=
  s.pStart ≤ v.p ∧ v.p < s.pEnd ∧ v.f < s.nFields ∧ v.k < s.fdof v.p v.f

/-- Where a value is. -/
def place (s : Section) (v : Value) : Nat := s.fieldOffset v.p v.f + v.k

/-- Every value has a place of its own, and every place of the vector holds a value. -/
def OnePlaceEach (s : Section) : Prop :=
  (∀ v, Has s v → place s v < s.size) ∧
  (∀ v w, Has s v → Has s w → place s v = place s w → v = w) ∧
  ∀ i < s.size, ∃ v, Has s v ∧ place s v = i

/-- A mesh with cells first, and faces later, among its points. -/
structure Ordered (m : Points) : Prop where
  first : m.cStart = 0
  cells : m.cEnd ≤ m.fStart
  faces : m.fStart ≤ m.fEnd
  last : m.fEnd ≤ m.pEnd

/-- The unknowns of a cell, by mode and finite volume method. -/
def unknowns : Mode → Disc → List String
  | .richards, .mpfaODae => ["LiquidPressure", "LiquidMass"]
  | .richards, _ => ["LiquidPressure"]
  | .th, _ => ["LiquidPressure", "LiquidTemperature"]
  | .salinity, _ => ["LiquidPressure", "SalineConcentration"]

/-- The finite volume methods. -/
def FiniteVolume (d : Disc) : Prop := d ≠ .bdm ∧ d ≠ .wy

end TDy.Sections.Spec
