import Verif.Model.Wy

/-!
# Specification: vertices moved after setup

The program steady calls TDySetup and moves the vertices of the mesh afterwards
(demo/steady/steady.c:865-882).  TDySetup_WY (src/fe/tdywy.c:344-377) has stored areas, volumes, centroids
and normals by then; the Jacobians of the cells (`DFinv`, `J`) are taken from the moved mesh when the
system is computed (src/fe/tdywy.c:183).
-/

namespace TDy.Fe.Spec

open TDy.Fe

noncomputable section

/-- The mesh `w`, with the areas, volumes, centroids and normals its vertices had before they moved. -/
def stale (w : Wy) (V : Nat → ℝ) (X N : Nat → Nat → ℝ) : Wy := {w with V := V, X := X, N := N}

/-- Faces have an area, before and after. -/
def Areas (w : Wy) (V : Nat → ℝ) : Prop := ∀ f, w.fStart ≤ f → f < w.fEnd → w.V f ≠ 0 ∧ V f ≠ 0

/-- The outcome of a call, with another view of the state it leaves. -/
def seen {α β : Type} (t : α → β) : Res α → Res β
  | .ok s => .ok (t s)
  | .err s => .err (t s)
  | .ub => .ub

/-- Velocities `vel` with each one of a face multiplied by its area `V`, and divided by `V'`. -/
def rescaled (w : Wy) (V V' : Nat → ℝ) (vel : Nat → Nat → ℝ) : Nat → Nat → ℝ := fun f k =>
  if w.fStart ≤ f ∧ f < w.fEnd then V f*vel f k/V' f else vel f k

end

end TDy.Fe.Spec
