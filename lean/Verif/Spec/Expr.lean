import Mathlib.Algebra.Group.Defs
import Mathlib.Data.Int.Notation
import Verif.Model.Weierstrass
import Verif.Model.Montgomery
import Verif.Model.Edwards

/-!
# Point expressions

A closed expression over the API of a curve: what a caller can write with `identity()`, `get_generator()`, `new_point`,
`+`, `-`, unary `-` and `*`. Coordinates and scalars are given as integers.
-/

namespace Redox.Spec

inductive PExpr
  | identity
  | generator
  | point (x y : ℤ)
  | add (a b : PExpr)
  | sub (a b : PExpr)
  | neg (a : PExpr)
  | mul (k : ℤ) (a : PExpr)

/-- The value in an abelian group, given the generator and the meaning of a pair of coordinates (none if the pair is not on
the curve). A scalar stands for its residue modulo the order `r`, as `new_scalar` says. -/
def PExpr.value {G : Type*} [AddCommGroup G] (r : ℕ) (g : G) (pt : ℤ → ℤ → Option G) : PExpr → Option G
  | .identity => some 0
  | .generator => some g
  | .point x y => pt x y
  | .add a b => do return (← a.value r g pt) + (← b.value r g pt)
  | .sub a b => do return (← a.value r g pt) - (← b.value r g pt)
  | .neg a => do return -(← a.value r g pt)
  | .mul k a => do return (k % r) • (← a.value r g pt)

/-- No scalar in the expression is a multiple of `r`. -/
def PExpr.NoZero (r : ℕ) : PExpr → Prop
  | .identity | .generator | .point _ _ => True
  | .add a b | .sub a b => a.NoZero r ∧ b.NoZero r
  | .neg a => a.NoZero r
  | .mul k a => ¬ (r : ℤ) ∣ k ∧ a.NoZero r

/-- Running the expression on a Weierstrass curve. -/
def PExpr.runW (prof : Profile) (e : Weierstrass.Curve) : PExpr → R Weierstrass.Point
  | .identity => e.identity
  | .generator => e.getGenerator
  | .point x y => do e.newPoint (← e.f.elt x) (← e.f.elt y)
  | .add a b => do (← a.runW prof e).add (← b.runW prof e)
  | .sub a b => do (← a.runW prof e).sub (← b.runW prof e)
  | .neg a => do (← a.runW prof e).neg
  | .mul k a => do (← a.runW prof e).mul prof (← e.newScalar k)

/-- Running the expression on a Montgomery curve. -/
def PExpr.runM (prof : Profile) (e : Montgomery.Curve) : PExpr → R Montgomery.Point
  | .identity => e.identity
  | .generator => e.getGenerator
  | .point x y => do e.newPoint (← e.f.elt x) (← e.f.elt y)
  | .add a b => do (← a.runM prof e).add (← b.runM prof e)
  | .sub a b => do (← a.runM prof e).sub (← b.runM prof e)
  | .neg a => do (← a.runM prof e).neg
  | .mul k a => do (← a.runM prof e).mul prof (← e.newScalar k)

/-- Running the expression on a twisted Edwards curve. -/
def PExpr.runE (prof : Profile) (e : Edwards.Curve) : PExpr → R Edwards.Point
  | .identity => e.identity
  | .generator => e.getGenerator
  | .point x y => do e.newPoint (← e.f.elt x) (← e.f.elt y)
  | .add a b => do (← a.runE prof e).add (← b.runE prof e)
  | .sub a b => do (← a.runE prof e).sub (← b.runE prof e)
  | .neg a => do (← a.runE prof e).neg
  | .mul k a => do (← a.runE prof e).mul prof (← e.newScalar k)

end Redox.Spec
