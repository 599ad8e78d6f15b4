import Mathlib.Data.ZMod.Basic
import Mathlib.Algebra.Field.ZMod
import Verif.Model.Scalar

/-!
# Client programs of the scalars of a group

A client holds scalars in registers, computes with them, and chooses every next step from what it has observed so far: results of `==`, the
bits in both orders, bytes and text.
-/

namespace Redox.Spec

/-- What a client can do with scalars of type `K`. -/
structure ScalarApi (K : Type) where
  ofInt : ℤ → R K
  add : K → K → R K
  sub : K → K → R K
  mul : K → K → R K
  div : K → K → R K
  neg : K → R K
  inv : K → R K
  eq : K → K → Bool
  bitsUp : K → R (List Bool)
  bitsDown : K → R (List Bool)
  bytesBE : K → R (List Byte)
  bytesLE : K → R (List Byte)
  text : K → List Byte

/-- A client that ends with a value in `α`. The first number of an operation is the register for the result. -/
inductive ScalarClient (α : Type) where
  | done (x : α)
  | ofInt (i : ℕ) (n : ℤ) (k : ScalarClient α)
  | add (i a b : ℕ) (k : ScalarClient α)
  | sub (i a b : ℕ) (k : ScalarClient α)
  | mul (i a b : ℕ) (k : ScalarClient α)
  | div (i a b : ℕ) (k : ScalarClient α)
  | neg (i a : ℕ) (k : ScalarClient α)
  | inv (i a : ℕ) (k : ScalarClient α)
  | eq (a b : ℕ) (k : Bool → ScalarClient α)
  | bitsUp (a : ℕ) (k : List Bool → ScalarClient α)
  | bitsDown (a : ℕ) (k : List Bool → ScalarClient α)
  | bytesBE (a : ℕ) (k : List Byte → ScalarClient α)
  | bytesLE (a : ℕ) (k : List Byte → ScalarClient α)
  | text (a : ℕ) (k : List Byte → ScalarClient α)

/-- The outcome of a client that starts with the given registers: its value, or the panic that ended it. -/
def ScalarClient.run {K α : Type} (A : ScalarApi K) : ScalarClient α → (ℕ → K) → R α
  | .done x, _ => R.ok x
  | .ofInt i n k, s => do k.run A (Function.update s i (← A.ofInt n))
  | .add i a b k, s => do k.run A (Function.update s i (← A.add (s a) (s b)))
  | .sub i a b k, s => do k.run A (Function.update s i (← A.sub (s a) (s b)))
  | .mul i a b k, s => do k.run A (Function.update s i (← A.mul (s a) (s b)))
  | .div i a b k, s => do k.run A (Function.update s i (← A.div (s a) (s b)))
  | .neg i a k, s => do k.run A (Function.update s i (← A.neg (s a)))
  | .inv i a k, s => do k.run A (Function.update s i (← A.inv (s a)))
  | .eq a b k, s => (k (A.eq (s a) (s b))).run A s
  | .bitsUp a k, s => do (k (← A.bitsUp (s a))).run A s
  | .bitsDown a k, s => do (k (← A.bitsDown (s a))).run A s
  | .bytesBE a k, s => do (k (← A.bytesBE (s a))).run A s
  | .bytesLE a k, s => do (k (← A.bytesLE (s a))).run A s
  | .text a k, s => (k (A.text (s a))).run A s

/-- The library, with scalars modulo `r`. -/
def scalarApi (prof : Profile) (r : ℕ) : ScalarApi Scalar where
  ofInt n := Scalar.new n r
  add a b := a.add b
  sub a b := a.sub b
  mul a b := a.mul b
  div a b := a.div b
  neg a := a.neg
  inv a := Scalar.u32Div 1 a
  eq a b := a == b
  bitsUp a := a.iterRL
  bitsDown a := a.iterLR prof
  bytesBE a := a.toBytesBE
  bytesLE a := a.toBytesLE
  text a := a.display

open Classical in
/-- The integers modulo `r`, with the given bits (the lowest one first), byte strings and texts. Dividing by 0 gives 0. Only the bits of 0 from the highest
one panic, with overflow checks. -/
noncomputable def residueApi (prof : Profile) (r : ℕ) [Fact r.Prime] (bits : ZMod r → List Bool) (bytes text : ZMod r → List Byte) :
    ScalarApi (ZMod r) where
  ofInt n := R.ok (n : ZMod r)
  add a b := R.ok (a + b)
  sub a b := R.ok (a - b)
  mul a b := R.ok (a * b)
  div a b := R.ok (a / b)
  neg a := R.ok (-a)
  inv a := R.ok a⁻¹
  eq a b := decide (a = b)
  bitsUp a := R.ok (bits a)
  bitsDown a := if prof = .debug ∧ a = 0 then R.panic .overflow else R.ok (bits a).reverse
  bytesBE a := R.ok (bytes a)
  bytesLE a := R.ok (bytes a).reverse
  text a := text a

end Redox.Spec
