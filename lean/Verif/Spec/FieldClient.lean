import Mathlib.Data.ZMod.Basic
import Mathlib.Algebra.Field.ZMod
import Verif.Model.PrimeField

/-!
# Client programs of a prime field

A client holds field elements in registers, computes with them, and chooses every next step from what it has observed so far: results of
`==`, `is_zero`, `is_one`, `is_square` and `sgn0`, bytes and text.
-/

namespace Redox.Spec

/-- What a client can do with elements of type `K`. -/
structure FieldApi (K : Type) where
  ofInt : ℤ → R K
  ofText : List Byte → R K
  ofBytesBE : List Byte → R K
  ofBytesLE : List Byte → R K
  add : K → K → R K
  sub : K → K → R K
  mul : K → K → R K
  div : K → K → R K
  neg : K → R K
  inv : K → R K
  pow : K → ℕ → R K
  powInt : K → ℤ → R K
  sqrt : K → R K
  select : K → K → Bool → K
  eq : K → K → Bool
  isZero : K → Bool
  isOne : K → Bool
  isSquare : K → R Bool
  sgn0 : K → ℤ
  bytesBE : K → R (List Byte)
  bytesLE : K → R (List Byte)
  text : K → R (List Byte)

/-- A client that ends with a value in `α`. The first number of an operation is the register for the result. -/
inductive FieldClient (α : Type) where
  | done (x : α)
  | ofInt (i : ℕ) (n : ℤ) (k : FieldClient α)
  | ofText (i : ℕ) (bs : List Byte) (k : FieldClient α)
  | ofBytesBE (i : ℕ) (bs : List Byte) (k : FieldClient α)
  | ofBytesLE (i : ℕ) (bs : List Byte) (k : FieldClient α)
  | add (i a b : ℕ) (k : FieldClient α)
  | sub (i a b : ℕ) (k : FieldClient α)
  | mul (i a b : ℕ) (k : FieldClient α)
  | div (i a b : ℕ) (k : FieldClient α)
  | neg (i a : ℕ) (k : FieldClient α)
  | inv (i a : ℕ) (k : FieldClient α)
  | pow (i a n : ℕ) (k : FieldClient α)
  | powInt (i a : ℕ) (n : ℤ) (k : FieldClient α)
  | sqrt (i a : ℕ) (k : FieldClient α)
  | select (i a b : ℕ) (c : Bool) (k : FieldClient α)
  | eq (a b : ℕ) (k : Bool → FieldClient α)
  | isZero (a : ℕ) (k : Bool → FieldClient α)
  | isOne (a : ℕ) (k : Bool → FieldClient α)
  | isSquare (a : ℕ) (k : Bool → FieldClient α)
  | sgn0 (a : ℕ) (k : ℤ → FieldClient α)
  | bytesBE (a : ℕ) (k : List Byte → FieldClient α)
  | bytesLE (a : ℕ) (k : List Byte → FieldClient α)
  | text (a : ℕ) (k : List Byte → FieldClient α)

/-- The outcome of a client that starts with the given registers: its value, or the panic that ended it. -/
def FieldClient.run {K α : Type} (A : FieldApi K) : FieldClient α → (ℕ → K) → R α
  | .done x, _ => R.ok x
  | .ofInt i n k, s => do k.run A (Function.update s i (← A.ofInt n))
  | .ofText i bs k, s => do k.run A (Function.update s i (← A.ofText bs))
  | .ofBytesBE i bs k, s => do k.run A (Function.update s i (← A.ofBytesBE bs))
  | .ofBytesLE i bs k, s => do k.run A (Function.update s i (← A.ofBytesLE bs))
  | .add i a b k, s => do k.run A (Function.update s i (← A.add (s a) (s b)))
  | .sub i a b k, s => do k.run A (Function.update s i (← A.sub (s a) (s b)))
  | .mul i a b k, s => do k.run A (Function.update s i (← A.mul (s a) (s b)))
  | .div i a b k, s => do k.run A (Function.update s i (← A.div (s a) (s b)))
  | .neg i a k, s => do k.run A (Function.update s i (← A.neg (s a)))
  | .inv i a k, s => do k.run A (Function.update s i (← A.inv (s a)))
  | .pow i a n k, s => do k.run A (Function.update s i (← A.pow (s a) n))
  | .powInt i a n k, s => do k.run A (Function.update s i (← A.powInt (s a) n))
  | .sqrt i a k, s => do k.run A (Function.update s i (← A.sqrt (s a)))
  | .select i a b c k, s => k.run A (Function.update s i (A.select (s a) (s b) c))
  | .eq a b k, s => (k (A.eq (s a) (s b))).run A s
  | .isZero a k, s => (k (A.isZero (s a))).run A s
  | .isOne a k, s => (k (A.isOne (s a))).run A s
  | .isSquare a k, s => do (k (← A.isSquare (s a))).run A s
  | .sgn0 a k, s => (k (A.sgn0 (s a))).run A s
  | .bytesBE a k, s => do (k (← A.bytesBE (s a))).run A s
  | .bytesLE a k, s => do (k (← A.bytesLE (s a))).run A s
  | .text a k, s => do (k (← A.text (s a))).run A s

/-- The library, in the field `f`. -/
def fpApi (f : Fp) : FieldApi FpElt where
  ofInt n := f.elt n
  ofText bs := f.fromStr bs
  ofBytesBE bs := f.fromBytesBE bs
  ofBytesLE bs := f.fromBytesLE bs
  add a b := a.add b
  sub a b := a.sub b
  mul a b := a.mul b
  div a b := a.div b
  neg a := a.neg
  inv a := FpElt.u32Div 1 a
  pow a n := a.powNat n
  powInt a n := a.powInt n
  sqrt a := a.sqrt
  select a b c := FpElt.cmov a b c
  eq a b := a == b
  isZero a := a.isZero
  isOne a := a.isOne
  isSquare a := a.isSquare
  sgn0 a := a.sgn0
  bytesBE a := a.toBytesBE
  bytesLE a := a.toBytesLE
  text a := a.display

/-- The value of a byte string, the most significant byte first. -/
def bigEndian (bs : List Byte) : ℕ := bs.foldl (fun v b => 256 * v + b.toNat) 0

/-- The value of a string of decimal digits in ASCII. -/
def decimalValue (bs : List Byte) : ℕ := bs.foldl (fun v b => 10 * v + (b.toNat - 48)) 0

open Classical in
/-- The integers modulo `p`, with the given square roots, byte strings, texts and reading of texts; nothing else panics. Dividing by 0 gives 0. The power of 0 with an
integer exponent is 1 if `p - 1` divides the exponent and 0 otherwise. -/
noncomputable def zmodApi (p : ℕ) [Fact p.Prime] (root : ZMod p → ZMod p) (bytes text : ZMod p → List Byte)
    (parse : List Byte → R (ZMod p)) : FieldApi (ZMod p) where
  ofInt n := R.ok (n : ZMod p)
  ofText bs := parse bs
  ofBytesBE bs := R.ok (bigEndian bs : ZMod p)
  ofBytesLE bs := R.ok (bigEndian bs.reverse : ZMod p)
  add a b := R.ok (a + b)
  sub a b := R.ok (a - b)
  mul a b := R.ok (a * b)
  div a b := R.ok (a / b)
  neg a := R.ok (-a)
  inv a := R.ok a⁻¹
  pow a n := R.ok (a ^ n)
  powInt a n := R.ok (if a = 0 then (if (p : ℤ) - 1 ∣ n then 1 else 0) else a ^ n)
  sqrt a := R.ok (root a)
  select a b c := if c then b else a
  eq a b := decide (a = b)
  isZero a := decide (a = 0)
  isOne a := decide (a = 1)
  isSquare a := R.ok (decide (IsSquare a))
  sgn0 a := if a.val % 2 = 0 then 1 else -1
  bytesBE a := R.ok (bytes a)
  bytesLE a := R.ok (bytes a).reverse
  text a := R.ok (text a)

end Redox.Spec
