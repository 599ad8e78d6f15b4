import Verif.Model.PrimeField

/-!
# src/quadraticfield/mod.rs

`Fp2` is determined by its base field. `Fp2Elt.n` is a `Vec<FpElt>` that always holds exactly two elements
(every constructor in the file writes `vec![n0, n1]`); it is modelled by the two fields `n0`, `n1`.
-/

namespace Redox

/-- `Fp2(Arc<Params>)` (src/quadraticfield/mod.rs:19-34). -/
structure Fp2 where
  base : Fp
deriving DecidableEq, Repr

/-- `Fp2Elt { n, f }` (src/quadraticfield/mod.rs:132-136). -/
structure Fp2Elt where
  n0 : FpElt
  n1 : FpElt
  f : Fp2
deriving DecidableEq, Repr

namespace Fp2

/-- `Fp2::new` (src/quadraticfield/mod.rs:44-48). -/
def new (modulus : Nat) : Fp2 := ⟨Fp.new modulus⟩

/-- `elt` (src/quadraticfield/mod.rs:53-58). -/
def elt (f : Fp2) (n : Int) : R Fp2Elt := do
  return ⟨← f.base.elt n, ← f.base.zero, f⟩

/-- `zero` (src/quadraticfield/mod.rs:59-61). -/
def zero (f : Fp2) : R Fp2Elt := f.elt 0

/-- `one` (src/quadraticfield/mod.rs:62-64). -/
def one (f : Fp2) : R Fp2Elt := f.elt 1

/-- `get_modulus` (src/quadraticfield/mod.rs:65-67). -/
def getModulus (f : Fp2) : Int := f.base.getModulus

/-- `size_bytes` (src/quadraticfield/mod.rs:68-70). -/
def sizeBytes (f : Fp2) : Nat := 2 * f.base.sizeBytes

/-- `from_bytes_be` (src/quadraticfield/mod.rs:75-87); `none` is the returned `Err("wrong size")`. -/
def fromBytesBE (f : Fp2) (bytes : List Byte) : R (Option Fp2Elt) := do
  let len := f.sizeBytes
  if len ≠ bytes.length then return none
  else
    let size := len / 2
    let n0 ← f.base.fromBytesBE (← slice bytes 0 size)
    let n1 ← f.base.fromBytesBE (← slice bytes size (2 * size))
    return some ⟨n0, n1, f⟩

/-- `from_bytes_le` (src/quadraticfield/mod.rs:88-100). -/
def fromBytesLE (f : Fp2) (bytes : List Byte) : R (Option Fp2Elt) := do
  let len := f.sizeBytes
  if len ≠ bytes.length then return none
  else
    let size := len / 2
    let n0 ← f.base.fromBytesLE (← slice bytes 0 size)
    let n1 ← f.base.fromBytesLE (← slice bytes size (2 * size))
    return some ⟨n0, n1, f⟩

/-- `FromFactory<u8..i64>` (src/quadraticfield/mod.rs:103-116): every primitive integer goes through `elt`. -/
def fromPrim (f : Fp2) (n : Int) : R Fp2Elt := f.elt n

/-- `FromFactory<&str>` (src/quadraticfield/mod.rs:118-129): split at the first comma; `vs[1]` panics when there is
none. The string is given by its UTF-8 bytes. -/
def fromStr (f : Fp2) (s : List Byte) : R Fp2Elt := do
  let vs0 := s.takeWhile (· ≠ 44)
  let rest := s.dropWhile (· ≠ 44)
  let n0 ← f.base.fromStr vs0
  match rest with
  | [] => R.panic .indexOutOfRange
  | _ :: vs1 =>
    let n1 ← f.base.fromStr vs1
    return ⟨n0, n1, f⟩

end Fp2

namespace Fp2Elt

/-- `Fp2Elt::elt` (src/quadraticfield/mod.rs:182-186). -/
def elt (a : Fp2Elt) (n0 n1 : FpElt) : Fp2Elt := ⟨n0, n1, a.f⟩

/-- `+` (src/quadraticfield/mod.rs:159-178, 196-198). -/
def add (a b : Fp2Elt) : R Fp2Elt :=
  doIfEq (a.f == b.f) (do return a.elt (← a.n0 +! b.n0) (← a.n1 +! b.n1)) .differentFields

/-- binary `-` (src/quadraticfield/mod.rs:199-205). -/
def sub (a b : Fp2Elt) : R Fp2Elt :=
  doIfEq (a.f == b.f) (do return a.elt (← a.n0 -! b.n0) (← a.n1 -! b.n1)) .differentFields

/-- `*` (src/quadraticfield/mod.rs:206-215). -/
def mul (a b : Fp2Elt) : R Fp2Elt :=
  doIfEq (a.f == b.f)
    (do return a.elt (← a.n0 *! b.n0 -! a.n1 *! b.n1) (← a.n0 *! b.n1 +! a.n1 *! b.n0)) .differentFields

/-- `inv_mod` (src/quadraticfield/mod.rs:188-193). -/
def invMod (a : Fp2Elt) : R Fp2Elt := do
  let den ← R.finv (a.n0 *! a.n0 +! a.n1 *! a.n1)
  return a.elt (← den *! a.n0) (← den *! a.n1)

/-- `/` (src/quadraticfield/mod.rs:217-221). -/
def div (a b : Fp2Elt) : R Fp2Elt := do
  let i ← b.invMod
  a.mul i

/-- unary `-` (src/quadraticfield/mod.rs:222). -/
def neg (a : Fp2Elt) : R Fp2Elt := do return a.elt (← a.n0.neg) (← a.n1.neg)

/-- `^ u32` (src/quadraticfield/mod.rs:223-225). -/
def powU32 (a : Fp2Elt) (b : Nat) : R Fp2Elt := doIfEq (b == 2) (a.mul a) .expSqr

/-- `^ i32` (src/quadraticfield/mod.rs:226-228). -/
def powI32 (a : Fp2Elt) (b : Int) : R Fp2Elt := doIfEq (b == -1) a.invMod .expInv

/-- `u32 / &Fp2Elt` (src/quadraticfield/mod.rs:230-236). -/
def u32Div (k : Nat) (a : Fp2Elt) : R Fp2Elt := doIfEq (k == 1) a.invMod .invNum

/-- `Zero::zero()` (src/quadraticfield/mod.rs:335-337). -/
def staticZero : R Fp2Elt := R.panic .unimplemented

/-- `One::one()` (src/quadraticfield/mod.rs:348-350). -/
def staticOne : R Fp2Elt := R.panic .unimplemented

/-- Inner loop of `^ &BigUint` (src/quadraticfield/mod.rs:245-251), for the listed bit positions `j`. -/
def powDigit (a : Fp2Elt) (vi : UInt32) : List Nat → Fp2Elt → R Fp2Elt
  | [], out => R.ok out
  | j :: js, out => do
    let out ← out.mul out
    let out ← if (vi.toNat >>> j) % 2 = 1 then out.mul a else R.ok out
    powDigit a vi js out

/-- Outer loop of `^ &BigUint` (src/quadraticfield/mod.rs:244-252) over the remaining digits, most significant first. -/
def powDigits (a : Fp2Elt) : List UInt32 → Fp2Elt → R Fp2Elt
  | [], out => R.ok out
  | vi :: vs, out => do
    let out ← a.powDigit vi (List.range 31).reverse out
    powDigits a vs out

/-- `^ &BigUint` (src/quadraticfield/mod.rs:238-255). -/
def powNat (a : Fp2Elt) (exp : Nat) : R Fp2Elt := do
  let v := Big.toU32Digits exp
  let out ← staticOne
  a.powDigits v.reverse out

/-- `^ &BigInt` (src/quadraticfield/mod.rs:257-264). -/
def powInt (a : Fp2Elt) (exp : Int) : R Fp2Elt := do
  let expo ← Big.toBiguint exp
  a.powNat expo

/-- `cmov` (src/field.rs:25-33, src/quadraticfield/mod.rs:266). -/
def cmov (x y : Fp2Elt) (b : Bool) : Fp2Elt := if b then y else x

/-- `is_zero` (src/quadraticfield/mod.rs:338-340). -/
def isZero (a : Fp2Elt) : Bool := a.n0.isZero && a.n1.isZero

/-- `is_one` (src/quadraticfield/mod.rs:351-353). -/
def isOne (a : Fp2Elt) : Bool := a.n0.isOne && a.n1.isZero

/-- `set_zero` (src/quadraticfield/mod.rs:341-344). -/
def setZero (a : Fp2Elt) : Fp2Elt := { a with n0 := a.n0.setZero, n1 := a.n1.setZero }

/-- `set_one` (src/quadraticfield/mod.rs:354-357). -/
def setOne (a : Fp2Elt) : Fp2Elt := { a with n0 := a.n0.setOne, n1 := a.n1.setZero }

/-- `sgn0` (src/quadraticfield/mod.rs:326-331), on `i32`. -/
def sgn0 (a : Fp2Elt) : Int :=
  let s0 := Int32.ofInt a.n0.sgn0
  let z0 : Int32 := if a.n0.isZero then 1 else 0
  let s1 := Int32.ofInt a.n1.sgn0
  (s0 ||| (z0 ^^^ s1)).toInt

/-- `to_bytes_be` (src/quadraticfield/mod.rs:142-148). -/
def toBytesBE (a : Fp2Elt) : R (List Byte) := do
  return (← a.n0.toBytesBE) ++ (← a.n1.toBytesBE)

/-- `to_bytes_le` (src/quadraticfield/mod.rs:150-156). -/
def toBytesLE (a : Fp2Elt) : R (List Byte) := do
  return (← a.n0.toBytesLE) ++ (← a.n1.toBytesLE)

/-- `is_square` (src/quadraticfield/mod.rs:295-302). -/
def isSquare (a : Fp2Elt) : R Bool := do
  let t0 ← a.n0 *! a.n0 +! a.n1 *! a.n1
  let exp := (a.f.getModulus - 1) / 2
  let t1 ← t0.powInt exp
  return t1 == (← a.f.base.one)

/-- `Display` (src/quadraticfield/mod.rs:360-364). -/
def display (a : Fp2Elt) : R (List Byte) := do
  return (← a.n0.display) ++ ascii! "+i*" ++ (← a.n1.display)

end Fp2Elt

/-- `Fp2::calc_sqrt_precmp` (src/quadraticfield/mod.rs:268-271, 281-290): the pair `(c1, c2)`. -/
def Fp2.calcSqrtPrecmp (f : Fp2) : R (Int × Int) :=
  if f.getModulus % 4 = 3 then R.ok ((f.getModulus - 3) / 4, (f.getModulus - 1) / 2)
  else R.panic .unimplemented

/-- `sqrt` (src/quadraticfield/mod.rs:303-322) with the constants computed afresh. -/
def Fp2Elt.sqrt (a : Fp2Elt) : R Fp2Elt := do
  let (c1, c2) ← a.f.calcSqrtPrecmp
  let a1 ← a.powInt c1
  let a1a ← a1.mul a
  let alpha ← a1.mul a1a
  let x0 := a1a
  let t ← alpha.add (← a.f.one)
  if t.isZero then
    let i := a.elt (← a.f.base.fromPrim 0) (← a.f.base.fromPrim 1)
    x0.mul i
  else
    let par ← alpha.add (← a.f.one)
    let b ← par.powInt c2
    x0.mul b

end Redox
