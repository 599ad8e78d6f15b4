import Mathlib.Algebra.Group.Defs
import Mathlib.Data.ZMod.Basic
import Verif.Spec.Arith
import Verif.Model.Scalar
import Verif.Model.Weierstrass
import Verif.Model.Montgomery
import Verif.Model.Edwards

/-!
# Programs over points and scalars

What a caller can write with given points and given scalars: `identity()`, `get_generator()`, `+`, `-`, unary `-` and `*` of points, where the scalars are
themselves computed by an arithmetic expression.
-/

namespace Redox.Spec

inductive GExpr
  | var (i : ℕ)
  | identity
  | generator
  | add (a b : GExpr)
  | sub (a b : GExpr)
  | neg (a : GExpr)
  | mul (a : GExpr) (k : AExpr)

/-- The value in an abelian group, given the values of the points, the generator, and the residues of the scalars modulo the order `r`. -/
def GExpr.value {G : Type*} [AddCommGroup G] {r : ℕ} (g : G) (κ : AExpr → ZMod r) (ρ : ℕ → G) : GExpr → G
  | .var i => ρ i
  | .identity => 0
  | .generator => g
  | .add a b => a.value g κ ρ + b.value g κ ρ
  | .sub a b => a.value g κ ρ - b.value g κ ρ
  | .neg a => -a.value g κ ρ
  | .mul a k => (κ k).val • a.value g κ ρ

/-- The multiple of the generator that the program stands for, modulo the order `r`, if the given points are the multiples `l i` of the generator. -/
def GExpr.log {r : ℕ} (κ : AExpr → ZMod r) (l : ℕ → ZMod r) : GExpr → ZMod r
  | .var i => l i
  | .identity => 0
  | .generator => 1
  | .add a b => a.log κ l + b.log κ l
  | .sub a b => a.log κ l - b.log κ l
  | .neg a => -a.log κ l
  | .mul a k => κ k * a.log κ l

/-- The residue modulo the order of an arithmetic expression in the given scalars; the inverse of zero is zero. For a prime order this is the inverse in the field. -/
def residue (r : ℕ) (senv : ℕ → Scalar) (k : AExpr) : ZMod r := k.value (fun z => z⁻¹) fun i => ((senv i).k : ZMod r)

/-- The property holds for every scalar of the program. -/
def GExpr.Scalars (S : AExpr → Prop) : GExpr → Prop
  | .var _ | .identity | .generator => True
  | .add a b | .sub a b => a.Scalars S ∧ b.Scalars S
  | .neg a => a.Scalars S
  | .mul a k => a.Scalars S ∧ S k

/-- Running the program on a Weierstrass curve. -/
def GExpr.runW (prof : Profile) (e : Weierstrass.Curve) (env : ℕ → Weierstrass.Point) (senv : ℕ → Scalar) : GExpr → R Weierstrass.Point
  | .var i => R.ok (env i)
  | .identity => e.identity
  | .generator => e.getGenerator
  | .add a b => do (← a.runW prof e env senv).add (← b.runW prof e env senv)
  | .sub a b => do (← a.runW prof e env senv).sub (← b.runW prof e env senv)
  | .neg a => do (← a.runW prof e env senv).neg
  | .mul a k => do (← a.runW prof e env senv).mul prof (← k.runS e.getOrder senv)

/-- Running the program on a Montgomery curve. -/
def GExpr.runM (prof : Profile) (e : Montgomery.Curve) (env : ℕ → Montgomery.Point) (senv : ℕ → Scalar) : GExpr → R Montgomery.Point
  | .var i => R.ok (env i)
  | .identity => e.identity
  | .generator => e.getGenerator
  | .add a b => do (← a.runM prof e env senv).add (← b.runM prof e env senv)
  | .sub a b => do (← a.runM prof e env senv).sub (← b.runM prof e env senv)
  | .neg a => do (← a.runM prof e env senv).neg
  | .mul a k => do (← a.runM prof e env senv).mul prof (← k.runS e.getOrder senv)

/-- Running the program on a twisted Edwards curve. -/
def GExpr.runE (prof : Profile) (e : Edwards.Curve) (env : ℕ → Edwards.Point) (senv : ℕ → Scalar) : GExpr → R Edwards.Point
  | .var i => R.ok (env i)
  | .identity => e.identity
  | .generator => e.getGenerator
  | .add a b => do (← a.runE prof e env senv).add (← b.runE prof e env senv)
  | .sub a b => do (← a.runE prof e env senv).sub (← b.runE prof e env senv)
  | .neg a => do (← a.runE prof e env senv).neg
  | .mul a k => do (← a.runE prof e env senv).mul prof (← k.runS e.getOrder senv)

end Redox.Spec
