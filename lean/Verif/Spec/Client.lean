import Mathlib.Algebra.Group.Defs
import Mathlib.Logic.Function.Basic
import Verif.Model.Weierstrass
import Verif.Model.Montgomery
import Verif.Model.Edwards

/-!
# Client programs of a curve

A client holds points in registers, computes with them, and chooses every next step from what it has observed so far: results of `==` and
`is_zero`, encodings, and errors of `decode`.
-/

namespace Redox.Spec

/-- What a client can do with points of type `P`. `point` takes the integers given to `elt` for the coordinates of `new_point`, `mul` the one
given to `new_scalar`. -/
structure PointApi (P : Type) where
  identity : R P
  generator : R P
  point : ℤ → ℤ → R P
  add : P → P → R P
  sub : P → P → R P
  neg : P → R P
  mul : P → ℤ → R P
  eq : P → P → R Bool
  isZero : P → Bool
  encode : P → Bool → R (List Byte)
  decode : List Byte → R (Except DecodeError P)

/-- A client that ends with a value in `α`. The first number of an operation is the register for the result. -/
inductive Client (α : Type) where
  | done (x : α)
  | identity (i : ℕ) (k : Client α)
  | generator (i : ℕ) (k : Client α)
  | point (i : ℕ) (x y : ℤ) (k : Client α)
  | add (i a b : ℕ) (k : Client α)
  | sub (i a b : ℕ) (k : Client α)
  | neg (i a : ℕ) (k : Client α)
  | mul (i a : ℕ) (n : ℤ) (k : Client α)
  | eq (a b : ℕ) (k : Bool → Client α)
  | isZero (a : ℕ) (k : Bool → Client α)
  | encode (a : ℕ) (c : Bool) (k : List Byte → Client α)
  | decode (i : ℕ) (bs : List Byte) (k : Option DecodeError → Client α)

/-- The outcome of a client that starts with the given registers: its value, or the panic that ended it. -/
def Client.run {P α : Type} (A : PointApi P) : Client α → (ℕ → P) → R α
  | .done x, _ => R.ok x
  | .identity i k, s => do k.run A (Function.update s i (← A.identity))
  | .generator i k, s => do k.run A (Function.update s i (← A.generator))
  | .point i x y k, s => do k.run A (Function.update s i (← A.point x y))
  | .add i a b k, s => do k.run A (Function.update s i (← A.add (s a) (s b)))
  | .sub i a b k, s => do k.run A (Function.update s i (← A.sub (s a) (s b)))
  | .neg i a k, s => do k.run A (Function.update s i (← A.neg (s a)))
  | .mul i a n k, s => do k.run A (Function.update s i (← A.mul (s a) n))
  | .eq a b k, s => do (k (← A.eq (s a) (s b))).run A s
  | .isZero a k, s => (k (A.isZero (s a))).run A s
  | .encode a c k, s => do (k (← A.encode (s a) c)).run A s
  | .decode i bs k, s => do
    match ← A.decode bs with
    | .error err => (k (some err)).run A s
    | .ok P => (k none).run A (Function.update s i P)

/-- The library, on a Weierstrass curve. -/
def wApi (prof : Profile) (e : Weierstrass.Curve) : PointApi Weierstrass.Point where
  identity := e.identity
  generator := e.getGenerator
  point x y := do e.newPoint (← e.f.elt x) (← e.f.elt y)
  add P Q := P.add Q
  sub P Q := P.sub Q
  neg P := P.neg
  mul P n := do P.mul prof (← e.newScalar n)
  eq P Q := P.eq Q
  isZero P := P.isZero
  encode P c := P.encode c
  decode bs := e.decode bs

/-- The library, on a Montgomery curve. -/
def mApi (prof : Profile) (e : Montgomery.Curve) : PointApi Montgomery.Point where
  identity := e.identity
  generator := e.getGenerator
  point x y := do e.newPoint (← e.f.elt x) (← e.f.elt y)
  add P Q := P.add Q
  sub P Q := P.sub Q
  neg P := P.neg
  mul P n := do P.mul prof (← e.newScalar n)
  eq P Q := P.eq Q
  isZero P := P.isZero
  encode P c := P.encode c
  decode bs := e.decode bs

/-- The library, on an Edwards curve. -/
def eApi (prof : Profile) (e : Edwards.Curve) : PointApi Edwards.Point where
  identity := e.identity
  generator := e.getGenerator
  point x y := do e.newPoint (← e.f.elt x) (← e.f.elt y)
  add P Q := P.add Q
  sub P Q := P.sub Q
  neg P := P.neg
  mul P n := do P.mul prof (← e.newScalar n)
  eq P Q := P.eq Q
  isZero P := P.isZero
  encode P c := P.encode c
  decode bs := e.decode bs

open Classical in
/-- An abelian group in the place of the library. Scalars are reduced modulo `r`; with overflow checks, multiples of `r` panic. `pt` says which pairs of
coordinates are on the curve, and `zero` for which elements `is_zero` is true. -/
noncomputable def groupApi {G : Type} [AddCommGroup G] (prof : Profile) (r : ℕ) (g : G) (pt : ℤ → ℤ → Option G) (zero : G → Prop) (enc : G → Bool → List Byte)
    (dec : List Byte → R (Except DecodeError G)) : PointApi G where
  identity := R.ok 0
  generator := R.ok g
  point x y := (pt x y).elim (R.panic .notValidPoint) R.ok
  add A B := R.ok (A + B)
  sub A B := R.ok (A - B)
  neg A := R.ok (-A)
  mul A n := if prof = .debug ∧ (r : ℤ) ∣ n then R.panic .overflow else R.ok ((n % r) • A)
  eq A B := R.ok (decide (A = B))
  isZero A := decide (zero A)
  encode A c := R.ok (enc A c)
  decode := dec

end Redox.Spec
