import Mathlib.GroupTheory.OrderOfElement
import Verif.Spec.Weierstrass
import Verif.Spec.Montgomery
import Verif.Spec.Edwards

/-!
# What valid curve parameters are

The number of bits of the order has to fit in the 64-bit `usize` used by the scalar loop. `addOrderOf A = r` says that `r` is the least positive number with `r • A = 0` in the reference group.
-/

namespace Redox.Spec

/-- Valid parameters of a Weierstrass curve: a nonsingular curve over a prime field, a prime order, no point of order two
(the condition under which the addition formulas of the code have no exceptions), and a generator on the curve whose order
is exactly the declared one. -/
structure WValid (p : ℕ) [Fact p.Prime] (e : Weierstrass.Curve) : Prop where
  curve : WCurve p e
  order_prime : e.getOrder.Prime
  order_bits : Big.bits e.r < usizeMod
  complete : NoTwoTorsion p e
  generator : ∃ G A, e.getGenerator = R.ok G ∧ WDenotes p e G A ∧ addOrderOf A = e.getOrder

/-- Valid parameters of a Montgomery curve `y² = x³ + a x² + x`; the constant `s` of the addition formulas is not the
`y`-coordinate of a point. -/
structure MValid (p : ℕ) [Fact p.Prime] (e : Montgomery.Curve) : Prop where
  curve : MCurve p e
  b_one : val p e.b = 1
  order_prime : e.getOrder.Prime
  order_bits : Big.bits e.r < usizeMod
  complete : SNotY p e
  generator : ∃ G A, e.getGenerator = R.ok G ∧ MDenotes p e G A ∧ addOrderOf A = e.getOrder

/-- Valid parameters of a twisted Edwards curve: `a` is a nonzero square and `d` is not a square. -/
structure EValid (p : ℕ) [Fact p.Prime] (e : Edwards.Curve) : Prop where
  curve : ECurve p e
  order_prime : e.getOrder.Prime
  order_bits : Big.bits e.r < usizeMod
  generator : ∃ G A, e.getGenerator = R.ok G ∧ EDenotes p e G A ∧ addOrderOf A = e.getOrder

end Redox.Spec
