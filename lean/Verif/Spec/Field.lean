import Mathlib.Data.ZMod.Basic
import Verif.Model.PrimeField

/-!
# Specification vocabulary for prime-field elements

An `FpElt` of the field with modulus `p` denotes the residue class `Spec.val p a : ZMod p`. Elements handed out by the
API are *canonical*: they belong to the field and hold the representative in `[0, p)`.
-/

namespace Redox.Spec

/-- `a` belongs to the field of modulus `p` and holds the canonical representative of its class. -/
def Canon (p : ℕ) (a : FpElt) : Prop := a.f = ⟨p⟩ ∧ 0 ≤ a.n ∧ a.n < p

/-- The residue class that `a` denotes in the integers mod `p`. -/
def val (p : ℕ) (a : FpElt) : ZMod p := (a.n : ZMod p)

/-- The outcome is an element of the field `p`, canonical, denoting `v`. -/
def Returns (p : ℕ) (r : R FpElt) (v : ZMod p) : Prop := ∃ c, r = R.ok c ∧ Canon p c ∧ val p c = v

end Redox.Spec
