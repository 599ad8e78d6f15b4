import Mathlib.AlgebraicGeometry.EllipticCurve.Affine.Point
import Mathlib.Algebra.Field.ZMod
import Verif.Spec.Field
import Verif.Model.Montgomery

/-!
# Specification vocabulary for Montgomery curves

The reference group is Mathlib's `WeierstrassCurve.Affine.Point` of `y² = x³ + a x² + x` over `ZMod p`; it is the group of
the curve `b y² = x³ + a x² + x` when `b = 1`.
-/

namespace Redox.Spec

open Montgomery

/-- A Montgomery curve over the field of odd prime order `p` with `b (a² - 4) ≠ 0`. Nothing is asked of `s`, order and
generator. -/
structure MCurve (p : ℕ) (e : Curve) : Prop where
  prime : p.Prime
  odd : p ≠ 2
  field : e.f = ⟨p⟩
  canon_a : Canon p e.a
  canon_b : Canon p e.b
  canon_s : Canon p e.s
  nonsingular : val p e.b * (val p e.a ^ 2 - 4) ≠ 0

/-- The curve `y² = x³ + a x² + x` over `ZMod p` with the coefficient `a` of `e`. -/
abbrev mGroup (p : ℕ) [Fact p.Prime] (e : Curve) : WeierstrassCurve.Affine (ZMod p) :=
  ⟨0, val p e.a, 0, 1, 0⟩

/-- The projective point `P` of the code stands for the group element `A`: `(0 : y : 0)` with `y ≠ 0` stands for the point
at infinity and `(x z : y z : z)` with `z ≠ 0` for the affine point `(x, y)`. -/
def MDenotes (p : ℕ) [Fact p.Prime] (e : Curve) (P : Point) (A : (mGroup p e).Point) : Prop :=
  P.e = e ∧ Canon p P.c.x ∧ Canon p P.c.y ∧ Canon p P.c.z ∧
  match A with
  | .zero => val p P.c.x = 0 ∧ val p P.c.y ≠ 0 ∧ val p P.c.z = 0
  | .some x y _ => val p P.c.z ≠ 0 ∧ val p P.c.x = x * val p P.c.z ∧ val p P.c.y = y * val p P.c.z

/-- The constant `s` of the curve is not the `y`-coordinate of any point. -/
def SNotY (p : ℕ) (e : Curve) : Prop :=
  ∀ x : ZMod p, val p e.b * val p e.s ^ 2 ≠ x ^ 3 + val p e.a * x ^ 2 + x

/-- The outcome of a point computation is a point that stands for `A`. -/
def MReturns (p : ℕ) [Fact p.Prime] (e : Curve) (r : R Point) (A : (mGroup p e).Point) : Prop :=
  ∃ S, r = R.ok S ∧ MDenotes p e S A

end Redox.Spec
