import Mathlib.Algebra.QuadraticAlgebra.Basic
import Verif.Spec.Field
import Verif.Model.QuadField

/-!
# Specification vocabulary for elements of the quadratic extension

The reference ring is Mathlib's `QuadraticAlgebra (ZMod p) (-1) 0`, i.e. `(ℤ/p)[i]` with `i² = -1`.
-/

namespace Redox.Spec

/-- `(ℤ/p)[i]/(i² + 1)`. -/
abbrev GFp2 (p : ℕ) := QuadraticAlgebra (ZMod p) (-1) 0

/-- Both coordinates are canonical elements of the base field. -/
def Canon2 (p : ℕ) (a : Fp2Elt) : Prop := a.f = ⟨⟨p⟩⟩ ∧ Canon p a.n0 ∧ Canon p a.n1

/-- The element of `(ℤ/p)[i]` that `a` denotes. -/
def val2 (p : ℕ) (a : Fp2Elt) : GFp2 p := ⟨val p a.n0, val p a.n1⟩

/-- The outcome is a canonical element of the extension denoting `v`. -/
def Returns2 (p : ℕ) (r : R Fp2Elt) (v : GFp2 p) : Prop := ∃ c, r = R.ok c ∧ Canon2 p c ∧ val2 p c = v

end Redox.Spec
