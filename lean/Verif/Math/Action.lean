import Mathlib.Algebra.Module.Basic
import Mathlib.Algebra.Module.NatInt
import Mathlib.Algebra.Order.Group.Int
import Mathlib.Tactic.Ring

/-! # Integer multiples in an abstract commutative group -/

namespace Redox

variable {G : Type*} [AddCommGroup G]

theorem zsmul_emod (r : ℕ) (A : G) (h : r • A = 0) (k : ℤ) : k • A = (k % r) • A := by
  conv_lhs => rw [← Int.emod_add_mul_ediv k r]
  rw [add_smul, mul_comm, mul_smul, natCast_zsmul, h, smul_zero, add_zero]

theorem zsmul_add' (A : G) (k l : ℤ) : (k + l) • A = k • A + l • A := add_smul k l A
theorem zsmul_mul' (A : G) (k l : ℤ) : (k * l) • A = k • l • A := mul_smul k l A
theorem zsmul_neg' (A : G) (k : ℤ) : (-k) • A = -(k • A) := neg_smul k A

end Redox
