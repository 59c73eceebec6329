import Mathlib.Tactic.Ring
import Verif.Model.FeBasis
import Verif.Spec.Fe

/-!
# The basis functions of the cube in closed form

The 72 polynomials follow one pattern: with `d` the direction of the function, `p`, `q` the next two
directions in cyclic order and `s` the signs of the corner, component `d` is the product of the
linear functions, component `p` is `s_p (1 - x_p^2)/16` and component `q` is
`s_q (1 - x_q^2) (1 + s_p x_p)/16`.
-/

namespace TDy.Fe.Proofs

open TDy.Fe TDy.Fe.Spec

noncomputable section

/-- The pattern. -/
def hexClosed (x y z a b c : ℝ) : Fin 3 → Fin 3 → ℝ
  | 0, 0 => a*((1 + a*x)*(1 + b*y)*(1 + c*z))/8
  | 0, 1 => b*(1 - y^2)/16
  | 0, 2 => c*(1 - z^2)*(1 + b*y)/16
  | 1, 0 => a*(1 - x^2)*(1 + c*z)/16
  | 1, 1 => b*((1 + a*x)*(1 + b*y)*(1 + c*z))/8
  | 1, 2 => c*(1 - z^2)/16
  | 2, 0 => a*(1 - x^2)/16
  | 2, 1 => b*(1 - y^2)*(1 + a*x)/16
  | 2, 2 => c*((1 + a*x)*(1 + b*y)*(1 + c*z))/8

theorem hexRef_closed (x y z : ℝ) : ∀ (a b c : Bool) (d e : Fin 3),
    hexRef x y z (3*((a.toNat + 2*b.toNat + 4*c.toNat)*3 + d) + e)
      = hexClosed x y z (sgn a) (sgn b) (sgn c) d e
  | false, false, false, 0, 0 => by
    show (x*y*z - x*y - x*z + x - y*z + y + z - 1) / 8 = (-1)*((1 + (-1)*x)*(1 + (-1)*y)*(1 + (-1)*z))/8
    ring
  | false, false, false, 0, 1 => by
    show (y*y - 1) / 16 = (-1)*(1 - y^2)/16
    ring
  | false, false, false, 0, 2 => by
    show (-y*z*z + y + z*z - 1) / 16 = (-1)*(1 - z^2)*(1 + (-1)*y)/16
    ring
  | false, false, false, 1, 0 => by
    show (-x*x*z + x*x + z - 1) / 16 = (-1)*(1 - x^2)*(1 + (-1)*z)/16
    ring
  | false, false, false, 1, 1 => by
    show (x*y*z - x*y - x*z + x - y*z + y + z - 1) / 8 = (-1)*((1 + (-1)*x)*(1 + (-1)*y)*(1 + (-1)*z))/8
    ring
  | false, false, false, 1, 2 => by
    show (z*z - 1) / 16 = (-1)*(1 - z^2)/16
    ring
  | false, false, false, 2, 0 => by
    show (x*x - 1) / 16 = (-1)*(1 - x^2)/16
    ring
  | false, false, false, 2, 1 => by
    show (-x*y*y + x + y*y - 1) / 16 = (-1)*(1 - y^2)*(1 + (-1)*x)/16
    ring
  | false, false, false, 2, 2 => by
    show (x*y*z - x*y - x*z + x - y*z + y + z - 1) / 8 = (-1)*((1 + (-1)*x)*(1 + (-1)*y)*(1 + (-1)*z))/8
    ring
  | false, false, true, 0, 0 => by
    show (-x*y*z - x*y + x*z + x + y*z + y - z - 1) / 8 = (-1)*((1 + (-1)*x)*(1 + (-1)*y)*(1 + 1*z))/8
    ring
  | false, false, true, 0, 1 => by
    show (y*y - 1) / 16 = (-1)*(1 - y^2)/16
    ring
  | false, false, true, 0, 2 => by
    show (y*z*z - y - z*z + 1) / 16 = 1*(1 - z^2)*(1 + (-1)*y)/16
    ring
  | false, false, true, 1, 0 => by
    show (x*x*z + x*x - z - 1) / 16 = (-1)*(1 - x^2)*(1 + 1*z)/16
    ring
  | false, false, true, 1, 1 => by
    show (-x*y*z - x*y + x*z + x + y*z + y - z - 1) / 8 = (-1)*((1 + (-1)*x)*(1 + (-1)*y)*(1 + 1*z))/8
    ring
  | false, false, true, 1, 2 => by
    show (-z*z + 1) / 16 = 1*(1 - z^2)/16
    ring
  | false, false, true, 2, 0 => by
    show (x*x - 1) / 16 = (-1)*(1 - x^2)/16
    ring
  | false, false, true, 2, 1 => by
    show (-x*y*y + x + y*y - 1) / 16 = (-1)*(1 - y^2)*(1 + (-1)*x)/16
    ring
  | false, false, true, 2, 2 => by
    show (x*y*z + x*y - x*z - x - y*z - y + z + 1) / 8 = 1*((1 + (-1)*x)*(1 + (-1)*y)*(1 + 1*z))/8
    ring
  | false, true, false, 0, 0 => by
    show (-x*y*z + x*y - x*z + x + y*z - y + z - 1) / 8 = (-1)*((1 + (-1)*x)*(1 + 1*y)*(1 + (-1)*z))/8
    ring
  | false, true, false, 0, 1 => by
    show (-y*y + 1) / 16 = 1*(1 - y^2)/16
    ring
  | false, true, false, 0, 2 => by
    show (y*z*z - y + z*z - 1) / 16 = (-1)*(1 - z^2)*(1 + 1*y)/16
    ring
  | false, true, false, 1, 0 => by
    show (-x*x*z + x*x + z - 1) / 16 = (-1)*(1 - x^2)*(1 + (-1)*z)/16
    ring
  | false, true, false, 1, 1 => by
    show (x*y*z - x*y + x*z - x - y*z + y - z + 1) / 8 = 1*((1 + (-1)*x)*(1 + 1*y)*(1 + (-1)*z))/8
    ring
  | false, true, false, 1, 2 => by
    show (z*z - 1) / 16 = (-1)*(1 - z^2)/16
    ring
  | false, true, false, 2, 0 => by
    show (x*x - 1) / 16 = (-1)*(1 - x^2)/16
    ring
  | false, true, false, 2, 1 => by
    show (x*y*y - x - y*y + 1) / 16 = 1*(1 - y^2)*(1 + (-1)*x)/16
    ring
  | false, true, false, 2, 2 => by
    show (-x*y*z + x*y - x*z + x + y*z - y + z - 1) / 8 = (-1)*((1 + (-1)*x)*(1 + 1*y)*(1 + (-1)*z))/8
    ring
  | false, true, true, 0, 0 => by
    show (x*y*z + x*y + x*z + x - y*z - y - z - 1) / 8 = (-1)*((1 + (-1)*x)*(1 + 1*y)*(1 + 1*z))/8
    ring
  | false, true, true, 0, 1 => by
    show (-y*y + 1) / 16 = 1*(1 - y^2)/16
    ring
  | false, true, true, 0, 2 => by
    show (-y*z*z + y - z*z + 1) / 16 = 1*(1 - z^2)*(1 + 1*y)/16
    ring
  | false, true, true, 1, 0 => by
    show (x*x*z + x*x - z - 1) / 16 = (-1)*(1 - x^2)*(1 + 1*z)/16
    ring
  | false, true, true, 1, 1 => by
    show (-x*y*z - x*y - x*z - x + y*z + y + z + 1) / 8 = 1*((1 + (-1)*x)*(1 + 1*y)*(1 + 1*z))/8
    ring
  | false, true, true, 1, 2 => by
    show (-z*z + 1) / 16 = 1*(1 - z^2)/16
    ring
  | false, true, true, 2, 0 => by
    show (x*x - 1) / 16 = (-1)*(1 - x^2)/16
    ring
  | false, true, true, 2, 1 => by
    show (x*y*y - x - y*y + 1) / 16 = 1*(1 - y^2)*(1 + (-1)*x)/16
    ring
  | false, true, true, 2, 2 => by
    show (-x*y*z - x*y - x*z - x + y*z + y + z + 1) / 8 = 1*((1 + (-1)*x)*(1 + 1*y)*(1 + 1*z))/8
    ring
  | true, false, false, 0, 0 => by
    show (x*y*z - x*y - x*z + x + y*z - y - z + 1) / 8 = 1*((1 + 1*x)*(1 + (-1)*y)*(1 + (-1)*z))/8
    ring
  | true, false, false, 0, 1 => by
    show (y*y - 1) / 16 = (-1)*(1 - y^2)/16
    ring
  | true, false, false, 0, 2 => by
    show (-y*z*z + y + z*z - 1) / 16 = (-1)*(1 - z^2)*(1 + (-1)*y)/16
    ring
  | true, false, false, 1, 0 => by
    show (x*x*z - x*x - z + 1) / 16 = 1*(1 - x^2)*(1 + (-1)*z)/16
    ring
  | true, false, false, 1, 1 => by
    show (-x*y*z + x*y + x*z - x - y*z + y + z - 1) / 8 = (-1)*((1 + 1*x)*(1 + (-1)*y)*(1 + (-1)*z))/8
    ring
  | true, false, false, 1, 2 => by
    show (z*z - 1) / 16 = (-1)*(1 - z^2)/16
    ring
  | true, false, false, 2, 0 => by
    show (-x*x + 1) / 16 = 1*(1 - x^2)/16
    ring
  | true, false, false, 2, 1 => by
    show (x*y*y - x + y*y - 1) / 16 = (-1)*(1 - y^2)*(1 + 1*x)/16
    ring
  | true, false, false, 2, 2 => by
    show (-x*y*z + x*y + x*z - x - y*z + y + z - 1) / 8 = (-1)*((1 + 1*x)*(1 + (-1)*y)*(1 + (-1)*z))/8
    ring
  | true, false, true, 0, 0 => by
    show (-x*y*z - x*y + x*z + x - y*z - y + z + 1) / 8 = 1*((1 + 1*x)*(1 + (-1)*y)*(1 + 1*z))/8
    ring
  | true, false, true, 0, 1 => by
    show (y*y - 1) / 16 = (-1)*(1 - y^2)/16
    ring
  | true, false, true, 0, 2 => by
    show (y*z*z - y - z*z + 1) / 16 = 1*(1 - z^2)*(1 + (-1)*y)/16
    ring
  | true, false, true, 1, 0 => by
    show (-x*x*z - x*x + z + 1) / 16 = 1*(1 - x^2)*(1 + 1*z)/16
    ring
  | true, false, true, 1, 1 => by
    show (x*y*z + x*y - x*z - x + y*z + y - z - 1) / 8 = (-1)*((1 + 1*x)*(1 + (-1)*y)*(1 + 1*z))/8
    ring
  | true, false, true, 1, 2 => by
    show (-z*z + 1) / 16 = 1*(1 - z^2)/16
    ring
  | true, false, true, 2, 0 => by
    show (-x*x + 1) / 16 = 1*(1 - x^2)/16
    ring
  | true, false, true, 2, 1 => by
    show (x*y*y - x + y*y - 1) / 16 = (-1)*(1 - y^2)*(1 + 1*x)/16
    ring
  | true, false, true, 2, 2 => by
    show (-x*y*z - x*y + x*z + x - y*z - y + z + 1) / 8 = 1*((1 + 1*x)*(1 + (-1)*y)*(1 + 1*z))/8
    ring
  | true, true, false, 0, 0 => by
    show (-x*y*z + x*y - x*z + x - y*z + y - z + 1) / 8 = 1*((1 + 1*x)*(1 + 1*y)*(1 + (-1)*z))/8
    ring
  | true, true, false, 0, 1 => by
    show (-y*y + 1) / 16 = 1*(1 - y^2)/16
    ring
  | true, true, false, 0, 2 => by
    show (y*z*z - y + z*z - 1) / 16 = (-1)*(1 - z^2)*(1 + 1*y)/16
    ring
  | true, true, false, 1, 0 => by
    show (x*x*z - x*x - z + 1) / 16 = 1*(1 - x^2)*(1 + (-1)*z)/16
    ring
  | true, true, false, 1, 1 => by
    show (-x*y*z + x*y - x*z + x - y*z + y - z + 1) / 8 = 1*((1 + 1*x)*(1 + 1*y)*(1 + (-1)*z))/8
    ring
  | true, true, false, 1, 2 => by
    show (z*z - 1) / 16 = (-1)*(1 - z^2)/16
    ring
  | true, true, false, 2, 0 => by
    show (-x*x + 1) / 16 = 1*(1 - x^2)/16
    ring
  | true, true, false, 2, 1 => by
    show (-x*y*y + x - y*y + 1) / 16 = 1*(1 - y^2)*(1 + 1*x)/16
    ring
  | true, true, false, 2, 2 => by
    show (x*y*z - x*y + x*z - x + y*z - y + z - 1) / 8 = (-1)*((1 + 1*x)*(1 + 1*y)*(1 + (-1)*z))/8
    ring
  | true, true, true, 0, 0 => by
    show (x*y*z + x*y + x*z + x + y*z + y + z + 1) / 8 = 1*((1 + 1*x)*(1 + 1*y)*(1 + 1*z))/8
    ring
  | true, true, true, 0, 1 => by
    show (-y*y + 1) / 16 = 1*(1 - y^2)/16
    ring
  | true, true, true, 0, 2 => by
    show (-y*z*z + y - z*z + 1) / 16 = 1*(1 - z^2)*(1 + 1*y)/16
    ring
  | true, true, true, 1, 0 => by
    show (-x*x*z - x*x + z + 1) / 16 = 1*(1 - x^2)*(1 + 1*z)/16
    ring
  | true, true, true, 1, 1 => by
    show (x*y*z + x*y + x*z + x + y*z + y + z + 1) / 8 = 1*((1 + 1*x)*(1 + 1*y)*(1 + 1*z))/8
    ring
  | true, true, true, 1, 2 => by
    show (-z*z + 1) / 16 = 1*(1 - z^2)/16
    ring
  | true, true, true, 2, 0 => by
    show (-x*x + 1) / 16 = 1*(1 - x^2)/16
    ring
  | true, true, true, 2, 1 => by
    show (-x*y*y + x - y*y + 1) / 16 = 1*(1 - y^2)*(1 + 1*x)/16
    ring
  | true, true, true, 2, 2 => by
    show (x*y*z + x*y + x*z + x + y*z + y + z + 1) / 8 = 1*((1 + 1*x)*(1 + 1*y)*(1 + 1*z))/8
    ring

end

end TDy.Fe.Proofs
