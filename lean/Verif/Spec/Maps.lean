import Mathlib.Algebra.Field.ZMod
import Mathlib.Algebra.Group.Even

/-!
# Specification of the maps to curves

The abscissas prescribed by RFC 9380 sections 6.6.1, 6.6.2 and 6.7.1, in the mathematical form given there
(`1 / x` means inverse with `1 / 0 = 0`).
-/

namespace Redox.Spec

variable {p : ℕ} [Fact p.Prime]

/-- `g(x) = x³ + a x + b`. -/
def rhs (a b x : ZMod p) : ZMod p := x ^ 3 + a * x + b

open Classical in
/-- Simplified SWU (RFC 9380, 6.6.2): the abscissa for the input `u`. -/
noncomputable def sswuX (a b z u : ZMod p) : ZMod p :=
  let t := z * u ^ 2
  let x1 := if t ^ 2 + t = 0 then b / (z * a) else (-b / a) * (1 + 1 / (t ^ 2 + t))
  if IsSquare (rhs a b x1) then x1 else t * x1

open Classical in
/-- Shallue-van de Woestijne (RFC 9380, 6.6.1): the abscissa for the input `u`, where `c` is the chosen square root of
`-g(z)(3z²+4a)`. -/
noncomputable def svdwX (a b z c u : ZMod p) : ZMod p :=
  let v := 1 - u ^ 2 * rhs a b z
  let w := 1 + u ^ 2 * rhs a b z
  let i := 1 / (v * w)
  let x1 := -z / 2 - u * v * i * c
  let x2 := -z / 2 + u * v * i * c
  let x3 := z + -4 * rhs a b z / (3 * z ^ 2 + 4 * a) * (w ^ 2 * i) ^ 2
  if IsSquare (rhs a b x1) then x1 else if IsSquare (rhs a b x2) then x2 else x3

/-- `x³ + (j/k) x² + x/k²`, whose squares give points of `k t² = s³ + j s² + s` with `s = k x`. -/
def mrhs (j k x : ZMod p) : ZMod p := x ^ 3 + j / k * x ^ 2 + x / k ^ 2

/-- Elligator 2 (RFC 9380, 6.7.1): the first candidate. -/
def ell2X1 (j k z u : ZMod p) : ZMod p :=
  if 1 + z * u ^ 2 = 0 then -(j / k) else -(j / k) / (1 + z * u ^ 2)

open Classical in
/-- Elligator 2 (RFC 9380, 6.7.1): the abscissa before scaling by `k`. -/
noncomputable def ell2X (j k z u : ZMod p) : ZMod p :=
  if IsSquare (mrhs j k (ell2X1 j k z u)) then ell2X1 j k z u else -(ell2X1 j k z u) - j / k

/-- Elligator 2 (RFC 9380, 6.7.1), `k = 1`: the ordinate is odd if the first candidate is used and even otherwise. -/
def Ell2Sign (j z u y : ZMod p) : Prop := y = 0 ∨ (y.val % 2 = 1 ↔ IsSquare (mrhs j 1 (ell2X1 j 1 z u)))

end Redox.Spec
