import Mathlib.Algebra.Ring.Defs
import Mathlib.Data.Int.Cast.Defs
import Verif.Model.PrimeField
import Verif.Model.QuadField
import Verif.Model.Scalar

/-!
# Arithmetic expressions

What a caller can write with the operators of field elements and of scalars: integer constants, inputs, `+`, `-`, `*`, unary `-`, `^ 2u32`,
`^ &BigUint`, `/` and `1u32 / x`.
-/

namespace Redox.Spec

inductive AExpr
  | const (n : ℤ)
  | var (i : ℕ)
  | add (a b : AExpr)
  | sub (a b : AExpr)
  | mul (a b : AExpr)
  | neg (a : AExpr)
  | sq (a : AExpr)
  | pow (a : AExpr) (n : ℕ)
  | div (a b : AExpr)
  | inv (a : AExpr)

/-- The value in a commutative ring, given the inputs and the function that takes inverses. -/
def AExpr.value {K : Type*} [CommRing K] (inv : K → K) (ρ : ℕ → K) : AExpr → K
  | .const n => n
  | .var i => ρ i
  | .add a b => a.value inv ρ + b.value inv ρ
  | .sub a b => a.value inv ρ - b.value inv ρ
  | .mul a b => a.value inv ρ * b.value inv ρ
  | .neg a => -a.value inv ρ
  | .sq a => a.value inv ρ ^ 2
  | .pow a n => a.value inv ρ ^ n
  | .div a b => a.value inv ρ * inv (b.value inv ρ)
  | .inv a => inv (a.value inv ρ)

/-- Neither `/` nor `1u32 / x` occurs. -/
def AExpr.NoDiv : AExpr → Prop
  | .const _ | .var _ => True
  | .add a b | .sub a b | .mul a b => a.NoDiv ∧ b.NoDiv
  | .neg a | .sq a | .pow a _ => a.NoDiv
  | .div _ _ | .inv _ => False

/-- `^ &BigUint` does not occur. -/
def AExpr.NoPow : AExpr → Prop
  | .const _ | .var _ => True
  | .add a b | .sub a b | .mul a b | .div a b => a.NoPow ∧ b.NoPow
  | .neg a | .sq a | .inv a => a.NoPow
  | .pow _ _ => False

/-- `^ 2u32` does not occur. -/
def AExpr.NoSq : AExpr → Prop
  | .const _ | .var _ => True
  | .add a b | .sub a b | .mul a b | .div a b => a.NoSq ∧ b.NoSq
  | .neg a | .inv a | .pow a _ => a.NoSq
  | .sq _ => False

/-- Running the expression in a prime field. -/
def AExpr.run (f : Fp) (env : ℕ → FpElt) : AExpr → R FpElt
  | .const n => f.elt n
  | .var i => R.ok (env i)
  | .add a b => do (← a.run f env).add (← b.run f env)
  | .sub a b => do (← a.run f env).sub (← b.run f env)
  | .mul a b => do (← a.run f env).mul (← b.run f env)
  | .neg a => do (← a.run f env).neg
  | .sq a => do (← a.run f env).powU32 2
  | .pow a n => do (← a.run f env).powNat n
  | .div a b => do (← a.run f env).div (← b.run f env)
  | .inv a => do FpElt.u32Div 1 (← a.run f env)

/-- Running the expression in a quadratic field. -/
def AExpr.run2 (f : Fp2) (env : ℕ → Fp2Elt) : AExpr → R Fp2Elt
  | .const n => f.elt n
  | .var i => R.ok (env i)
  | .add a b => do (← a.run2 f env).add (← b.run2 f env)
  | .sub a b => do (← a.run2 f env).sub (← b.run2 f env)
  | .mul a b => do (← a.run2 f env).mul (← b.run2 f env)
  | .neg a => do (← a.run2 f env).neg
  | .sq a => do (← a.run2 f env).powU32 2
  | .pow a n => do (← a.run2 f env).powNat n
  | .div a b => do (← a.run2 f env).div (← b.run2 f env)
  | .inv a => do Fp2Elt.u32Div 1 (← a.run2 f env)

/-- Running the expression on scalars of the order `r`. Scalars have no `^`: an expression with one is no program, and the theorems
exclude it. -/
def AExpr.runS (r : ℕ) (env : ℕ → Scalar) : AExpr → R Scalar
  | .const n => Scalar.new n r
  | .var i => R.ok (env i)
  | .add a b => do (← a.runS r env).add (← b.runS r env)
  | .sub a b => do (← a.runS r env).sub (← b.runS r env)
  | .mul a b => do (← a.runS r env).mul (← b.runS r env)
  | .neg a => do (← a.runS r env).neg
  | .sq _ | .pow _ _ => R.panic .unimplemented
  | .div a b => do (← a.runS r env).div (← b.runS r env)
  | .inv a => do Scalar.u32Div 1 (← a.runS r env)

end Redox.Spec
