import Verif.Spec.Weierstrass
import Verif.Model.RationalMaps
import Mathlib.Algebra.BigOperators.Fin

/-!
# Specification vocabulary for the isogenies given by rational functions
-/

namespace Redox.Spec

/-- Value at `x` of the polynomial with coefficients `cs`, constant term first. -/
def polyVal (p : ℕ) (cs : List FpElt) (x : ZMod p) : ZMod p := ∑ i : Fin cs.length, val p (cs.get i) * x ^ (i : ℕ)

/-- The abscissa `x` is that of a point in the kernel: a denominator vanishes. -/
def InKernel (p : ℕ) (m : IsoMap) (x : ZMod p) : Prop := polyVal p m.x_den x = 0 ∨ polyVal p m.y_den x = 0

/-- `B` is the image of `A` under the isogeny of RFC 9380, appendix E:
`(x, y) ↦ (x_num(x)/x_den(x), y · y_num(x)/y_den(x))`, where infinity and the points at which a denominator vanishes go to
infinity. -/
def IsoImage {p : ℕ} [Fact p.Prime] (m : IsoMap) : (wGroup p m.e0).Point → (wGroup p m.e1).Point → Prop
  | .zero, B => B = 0
  | .some x _ _, .zero => InKernel p m x
  | .some x y _, .some u v _ => ¬ InKernel p m x ∧ u = polyVal p m.x_num x / polyVal p m.x_den x ∧
      v = y * (polyVal p m.y_num x / polyVal p m.y_den x)

/-- The rational functions of `m` map the curve `m.e0` over GF(p) to the curve `m.e1` over GF(p). -/
structure IsoOK (p : ℕ) (m : IsoMap) : Prop where
  e0 : WCurve p m.e0
  e1 : WCurve p m.e1
  canon_xn : ∀ c ∈ m.x_num, Canon p c
  canon_xd : ∀ c ∈ m.x_den, Canon p c
  canon_yn : ∀ c ∈ m.y_num, Canon p c
  canon_yd : ∀ c ∈ m.y_den, Canon p c
  maps : ∀ x : ZMod p, (polyVal p m.x_num x ^ 3 + val p m.e1.a * polyVal p m.x_num x * polyVal p m.x_den x ^ 2 +
      val p m.e1.b * polyVal p m.x_den x ^ 3) * polyVal p m.y_den x ^ 2 =
    (x ^ 3 + val p m.e0.a * x + val p m.e0.b) * polyVal p m.y_num x ^ 2 * polyVal p m.x_den x ^ 3

end Redox.Spec
