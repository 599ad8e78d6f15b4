import Mathlib.Algebra.Field.ZMod
import Verif.Spec.Field
import Verif.Model.Edwards
import Verif.Math.Edwards

/-!
# Specification vocabulary for twisted Edwards curves

The reference group is `Edw.EPt a d`: the pairs `(x, y)` with `a x² + y² = 1 + d x² y²`, with the Edwards addition law
`((x1 y2 + y1 x2)/(1 + d x1 x2 y1 y2), (y1 y2 - a x1 x2)/(1 - d x1 x2 y1 y2))`, identity `(0, 1)` and negation
`(x, y) ↦ (-x, y)`. `Verif.Math.Edwards` proves that it is an abelian group when `a` is a nonzero square and `d` is not a
square; the formulas are repeated below.
-/

namespace Redox.Spec

open Edwards Edw

/-- A twisted Edwards curve over the field of odd prime order `p`. Nothing is asked of order and generator. -/
structure EParams (p : ℕ) (e : Curve) : Prop where
  prime : p.Prime
  odd : p ≠ 2
  field : e.f = ⟨p⟩
  canon_a : Canon p e.a
  canon_d : Canon p e.d

/-- Such a curve whose `a` is a nonzero square and whose `d` is not a square. -/
class ECurve (p : ℕ) [Fact p.Prime] (e : Curve) : Prop where
  params : EParams p e
  a_ne : val p e.a ≠ 0
  a_sq : IsSquare (val p e.a)
  d_nsq : ¬ IsSquare (val p e.d)

/-- The points of the curve. -/
abbrev eGroup (p : ℕ) [Fact p.Prime] (e : Curve) : Type := EPt (val p e.a) (val p e.d)

instance instEdCurve (p : ℕ) [Fact p.Prime] (e : Curve) [h : ECurve p e] : EdCurve (val p e.a) (val p e.d) where
  two := by
    have hp := (Fact.out : p.Prime)
    intro h0
    have : (p : ℕ) ∣ 2 := (ZMod.natCast_eq_zero_iff 2 p).1 (by exact_mod_cast h0)
    have := Nat.le_of_dvd (by norm_num) this
    have := hp.two_le
    have := h.params.odd
    omega
  sq := h.a_sq
  ne := h.a_ne
  nsq := h.d_nsq

/-- The group law of `eGroup` is the Edwards law, with nonzero denominators. -/
theorem eGroup_law (p : ℕ) [Fact p.Prime] (e : Curve) [h : ECurve p e] (A B : eGroup p e) :
    (A + B).x = (A.x * B.y + A.y * B.x) / (1 + val p e.d * A.x * B.x * A.y * B.y) ∧
    (A + B).y = (A.y * B.y - val p e.a * A.x * B.x) / (1 - val p e.d * A.x * B.x * A.y * B.y) ∧
    1 + val p e.d * A.x * B.x * A.y * B.y ≠ 0 ∧ 1 - val p e.d * A.x * B.x * A.y * B.y ≠ 0 ∧
    (-A).x = -A.x ∧ (-A).y = A.y ∧ (0 : eGroup p e).x = 0 ∧ (0 : eGroup p e).y = 1 ∧ A - B = A + -B :=
  ⟨rfl, rfl, complete_add A B, complete_sub A B, rfl, rfl, rfl, rfl, sub_eq_add_neg A B⟩

/-- The extended projective point `P` of the code stands for the affine point `A = (x, y)`: it is
`(x z : y z : x y z : z)` with `z ≠ 0`. -/
def EDenotes (p : ℕ) [Fact p.Prime] (e : Curve) (P : Point) (A : eGroup p e) : Prop :=
  P.e = e ∧ Canon p P.c.x ∧ Canon p P.c.y ∧ Canon p P.c.t ∧ Canon p P.c.z ∧
  val p P.c.z ≠ 0 ∧ val p P.c.x = A.x * val p P.c.z ∧ val p P.c.y = A.y * val p P.c.z ∧
  val p P.c.t = A.x * A.y * val p P.c.z

/-- The outcome of a point computation is a point that stands for `A`. -/
def EReturns (p : ℕ) [Fact p.Prime] (e : Curve) (r : R Point) (A : eGroup p e) : Prop :=
  ∃ S, r = R.ok S ∧ EDenotes p e S A

end Redox.Spec
