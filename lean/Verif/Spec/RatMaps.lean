import Verif.Spec.Montgomery
import Verif.Spec.Edwards
import Verif.Model.RationalMaps

/-!
# Specification vocabulary for the maps between Edwards and Montgomery curves
-/

namespace Redox.Spec

/-- The affine Edwards point `A = (x, y)` and the Montgomery point correspond under RFC 7748, section 4.1:
`(u, v) = ((1+y)/(1-y), c u/x)`, with `(0, 1)` sent to infinity and `(0, -1)` to `(0, 0)`. -/
def Corresponds {p : ℕ} [Fact p.Prime] {e0 : Edwards.Curve} {e1 : Montgomery.Curve} (c : ZMod p) (A : eGroup p e0) :
    (mGroup p e1).Point → Prop
  | .zero => A.x = 0 ∧ A.y = 1
  | .some u v _ => A.y ≠ 1 ∧ u = (1 + A.y) / (1 - A.y) ∧ (A.x ≠ 0 → v = c * u / A.x) ∧ (A.x = 0 → v = 0)

/-- An `Ed2Mt25519` whose two curves over GF(p) are birationally equivalent with the stored constant `c`:
`c² (a-d) = 4` and `A (a-d) = 2 (a+d)`. -/
structure Ed2MtOK (p : ℕ) [Fact p.Prime] (m : Ed2Mt25519) : Prop where
  e1 : MCurve p m.e1
  b_one : val p m.e1.b = 1
  canon_c : Canon p m.invsqr_d
  const : val p m.invsqr_d ^ 2 * (val p m.e0.a - val p m.e0.d) = 4
  coeff : val p m.e1.a * (val p m.e0.a - val p m.e0.d) = 2 * (val p m.e0.a + val p m.e0.d)

/-- The point `(0, -1)`, of order two. -/
def eTwo (p : ℕ) [Fact p.Prime] (e : Edwards.Curve) : eGroup p e := ⟨0, -1, by ring⟩

/-- The Montgomery point is the image of the affine Edwards point `(x, y)` under the 4-isogeny of RFC 7748, section 4.2:
`(u, v) = (y²/x², (2 - x² - y²) y/x³)`, with the two points `(0, ±1)` sent to infinity. -/
def Push448 {p : ℕ} [Fact p.Prime] {e0 : Edwards.Curve} {e1 : Montgomery.Curve} (A : eGroup p e0) :
    (mGroup p e1).Point → Prop
  | .zero => A.x = 0
  | .some u v _ => A.x ≠ 0 ∧ u = A.y ^ 2 / A.x ^ 2 ∧ v = (2 - A.x ^ 2 - A.y ^ 2) * A.y / A.x ^ 3

/-- The affine Edwards point is the image of the Montgomery point under the dual 4-isogeny of RFC 7748, section 4.2:
`(x, y) = (4v(u²-1)/(u⁴-2u²+4v²+1), -(u⁵-2u³-4uv²+u)/(u⁵-2u²v²-2u³-2v²+u))` with nonzero denominators, and infinity and
`(0, 0)` sent to `(0, 1)`. -/
def Pull448 {p : ℕ} [Fact p.Prime] {e0 : Edwards.Curve} {e1 : Montgomery.Curve} (A : eGroup p e0) :
    (mGroup p e1).Point → Prop
  | .zero => A.x = 0 ∧ A.y = 1
  | .some u v _ => (u = 0 ∧ v = 0 ∧ A.x = 0 ∧ A.y = 1) ∨
      (u ≠ 0 ∧ u ^ 4 - 2 * u ^ 2 + 4 * v ^ 2 + 1 ≠ 0 ∧ u ^ 5 - 2 * u ^ 2 * v ^ 2 - 2 * u ^ 3 - 2 * v ^ 2 + u ≠ 0 ∧
        A.x = 4 * v * (u ^ 2 - 1) / (u ^ 4 - 2 * u ^ 2 + 4 * v ^ 2 + 1) ∧
        A.y = -(u ^ 5 - 2 * u ^ 3 - 4 * u * v ^ 2 + u) / (u ^ 5 - 2 * u ^ 2 * v ^ 2 - 2 * u ^ 3 - 2 * v ^ 2 + u))

/-- An `Ed4isoMt448` whose two curves over GF(p) are `x² + y² = 1 + d x² y²` and `v² = u³ + (2 - 4d) u² + u`, the second with a
single point of order two. -/
structure Ed4OK (p : ℕ) [Fact p.Prime] (m : Ed4isoMt448) : Prop where
  e1 : MCurve p m.e1
  b_one : val p m.e1.b = 1
  a_one : val p m.e0.a = 1
  coeff : val p m.e1.a = 2 - 4 * val p m.e0.d
  single : ¬ IsSquare (val p m.e1.a ^ 2 - 4)

end Redox.Spec
