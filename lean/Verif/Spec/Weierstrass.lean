import Mathlib.AlgebraicGeometry.EllipticCurve.Affine.Point
import Mathlib.Algebra.Field.ZMod
import Verif.Spec.Field
import Verif.Model.Weierstrass

/-!
# Specification vocabulary for Weierstrass curves

The reference group is Mathlib's `WeierstrassCurve.Affine.Point` of `y² = x³ + a x + b` over `ZMod p`: the affine points
of the curve plus the point at infinity, with the chord-and-tangent addition.
-/

namespace Redox.Spec

open Weierstrass

/-- A curve over the field of odd prime order `p` with nonzero discriminant. Nothing is asked of order and generator. -/
structure WCurve (p : ℕ) (e : Curve) : Prop where
  prime : p.Prime
  odd : p ≠ 2
  field : e.f = ⟨p⟩
  canon_a : Canon p e.a
  canon_b : Canon p e.b
  nonsingular : 4 * val p e.a ^ 3 + 27 * val p e.b ^ 2 ≠ 0

/-- The curve `y² = x³ + a x + b` over `ZMod p` with the coefficients of `e`. -/
abbrev wGroup (p : ℕ) [Fact p.Prime] (e : Curve) : WeierstrassCurve.Affine (ZMod p) :=
  ⟨0, 0, 0, val p e.a, val p e.b⟩

/-- The projective point `P` of the code stands for the group element `A`: `(0 : y : 0)` with `y ≠ 0` stands for the point
at infinity and `(x z : y z : z)` with `z ≠ 0` for the affine point `(x, y)`. -/
def WDenotes (p : ℕ) [Fact p.Prime] (e : Curve) (P : Point) (A : (wGroup p e).Point) : Prop :=
  P.e = e ∧ Canon p P.c.x ∧ Canon p P.c.y ∧ Canon p P.c.z ∧
  match A with
  | .zero => val p P.c.x = 0 ∧ val p P.c.y ≠ 0 ∧ val p P.c.z = 0
  | .some x y _ => val p P.c.z ≠ 0 ∧ val p P.c.x = x * val p P.c.z ∧ val p P.c.y = y * val p P.c.z

/-- The curve has no point of order two. -/
def NoTwoTorsion (p : ℕ) [Fact p.Prime] (e : Curve) : Prop := ∀ A : (wGroup p e).Point, A + A = 0 → A = 0

/-- The outcome of a point computation is a point that stands for `A`. -/
def WReturns (p : ℕ) [Fact p.Prime] (e : Curve) (r : R Point) (A : (wGroup p e).Point) : Prop :=
  ∃ S, r = R.ok S ∧ WDenotes p e S A

end Redox.Spec
