import Verif.Model.BigInt

/-!
# src/primefield/mod.rs

`Fp` is identified with its modulus (equality of `Params` compares only `p`, lines 27-31); the square-root cache is
modelled in `Model/Cache.lean`.
-/

namespace Redox

/-- `Fp(Arc<Params>)` (src/primefield/mod.rs:20-35). Only `p` takes part in equality. `p` is a `BigInt` made from a
`BigUint` and never changed, hence a `Nat` here. -/
structure Fp where
  p : Nat
deriving DecidableEq, Repr

/-- `FpElt { n, f }` (src/primefield/mod.rs:139-143). Equality is derived, i.e. on both fields. -/
structure FpElt where
  n : Int
  f : Fp
deriving DecidableEq, Repr

namespace Fp

/-- `Fp::new` (src/primefield/mod.rs:45-51). No primality check. -/
def new (modulus : Nat) : Fp := ⟨modulus⟩

/-- `Field::elt` (src/primefield/mod.rs:56-60). -/
def elt (f : Fp) (n : Int) : R FpElt := do
  let n ← Big.modFloor n f.p
  return ⟨n, f⟩

/-- `Field::zero` (src/primefield/mod.rs:61-63). -/
def zero (f : Fp) : R FpElt := f.elt 0

/-- `Field::one` (src/primefield/mod.rs:64-66). -/
def one (f : Fp) : R FpElt := f.elt 1

/-- `Field::get_modulus` (src/primefield/mod.rs:67-69). -/
def getModulus (f : Fp) : Int := f.p

/-- `Field::size_bytes` (src/primefield/mod.rs:70-72). -/
def sizeBytes (f : Fp) : Nat := (Big.bits f.p + 7) / 8

/-- `Deserialize::from_bytes_be` (src/primefield/mod.rs:77-80). Always `Ok` when it returns. -/
def fromBytesBE (f : Fp) (bytes : List Byte) : R FpElt := f.elt (Big.fromBytesBE bytes)

/-- `Deserialize::from_bytes_le` (src/primefield/mod.rs:81-84). -/
def fromBytesLE (f : Fp) (bytes : List Byte) : R FpElt := f.elt (Big.fromBytesLE bytes)

/-- `FromFactory<u8..i64>` (src/primefield/mod.rs:87-100): every primitive integer goes through `elt`. -/
def fromPrim (f : Fp) (n : Int) : R FpElt := f.elt n

end Fp

/-- Source text of a Rust string literal as its UTF-8 bytes (ASCII only). Purely syntactic; the literals are cited where they are used
(e.g. src/primefield/mod.rs:117-128). -/
macro "ascii!" s:str : term => do
  let elems := (s.getString.toList.map fun c => Lean.Syntax.mkNumLit (toString c.toNat)).toArray
  `(([$elems,*] : List Byte))

/-- `&s[n..]` / the end point of `&s[0..n]` for a `&str` given by its UTF-8 bytes: `n` must be a character
boundary, i.e. not point at a continuation byte `10xxxxxx` (used for src/primefield/mod.rs:104, 109, 116). -/
def strBoundary (s : List Byte) (n : Nat) : R Unit :=
  if s.length < n then R.panic .indexOutOfRange
  else match s[n]? with
    | some b => if b.toNat / 64 = 2 then R.panic .charBoundary else R.ok ()
    | none => R.ok ()

/-- `FromFactory<&str>` (src/primefield/mod.rs:102-136). The string is given by its UTF-8 bytes. -/
def Fp.fromStr (f : Fp) (s : List Byte) : R FpElt :=
  if s = [] then f.zero
  else do
    let (neg, sl) := if s.head? = some 45 then ((-1 : Int), s.drop 1) else (1, s)
    let (radix, sl) ←
      if 1 < sl.length then do
        strBoundary sl 2
        if sl.take 2 = ascii! "0o" then pure (8, sl.drop 2)
        else if sl.take 2 = ascii! "0x" then pure (16, sl.drop 2)
        else if sl.take 2 = ascii! "0b" then pure (2, sl.drop 2)
        else pure (10, sl)
      else pure (10, sl)
    match Big.parseInt radix sl with
    | some v => f.elt (neg * v)
    | none => R.panic .unwrapNone

/-- `BigUint::from_str(s).unwrap()` as used for curve parameters (e.g. src/weierstrass/curve.rs:183-188). -/
def biguintFromStr (s : List Byte) : R Nat :=
  match Big.parseNat 10 s with
  | some v => R.ok v
  | none => R.panic .unwrapNone

namespace FpElt

/-- `Display` of an element (src/primefield/mod.rs:348-353): the decimal digits of the reduced value. -/
def display (a : FpElt) : R (List Byte) := do
  let x ← Big.modFloor a.n a.f.p
  return Big.showInt x

/-- `FpElt::red` (src/primefield/mod.rs:185-189). -/
def red (a : FpElt) (n : Int) : R FpElt := do
  let n ← Big.modFloor n a.f.p
  return ⟨n, a.f⟩

/-- `+` (src/primefield/mod.rs:170-181, 197-199; all overloads have the same body). -/
def add (a b : FpElt) : R FpElt := doIfEq (a.f == b.f) (a.red (a.n + b.n)) .differentFields

/-- binary `-` (src/primefield/mod.rs:200-202). -/
def sub (a b : FpElt) : R FpElt := doIfEq (a.f == b.f) (a.red (a.n - b.n)) .differentFields

/-- `*` (src/primefield/mod.rs:203-205). -/
def mul (a b : FpElt) : R FpElt := doIfEq (a.f == b.f) (a.red (a.n * b.n)) .differentFields

/-- `^ &BigUint` (src/primefield/mod.rs:228-235). -/
def powNat (a : FpElt) (e : Nat) : R FpElt := do
  let v ← Big.modpow a.n e a.f.p
  a.red v

/-- `^ &BigInt` (src/primefield/mod.rs:237-244): the exponent is first reduced modulo `p - 1`. -/
def powInt (a : FpElt) (e : Int) : R FpElt := do
  let m ← Big.modFloor e ((a.f.p : Int) - 1)
  let expo ← Big.toBiguint m
  a.powNat expo

/-- `FpElt::inv_mod` (src/primefield/mod.rs:191-194): the power `p - 2`. -/
def invMod (a : FpElt) : R FpElt := a.powInt ((a.f.p : Int) - 2)

/-- `/` (src/primefield/mod.rs:207-211). -/
def div (a b : FpElt) : R FpElt := do
  let i ← b.invMod
  a.mul i

/-- unary `-` (src/primefield/mod.rs:212). -/
def neg (a : FpElt) : R FpElt := a.red (-a.n)

/-- `^ u32` (src/primefield/mod.rs:213-215): only the exponent 2 is accepted. -/
def powU32 (a : FpElt) (b : Nat) : R FpElt := doIfEq (b == 2) (a.mul a) .expSqr

/-- `^ i32` (src/primefield/mod.rs:216-218): only the exponent -1 is accepted. -/
def powI32 (a : FpElt) (b : Int) : R FpElt := doIfEq (b == -1) a.invMod .expInv

/-- `u32 / &FpElt` (src/primefield/mod.rs:220-226): only the numerator 1 is accepted. -/
def u32Div (k : Nat) (a : FpElt) : R FpElt := doIfEq (k == 1) a.invMod .invNum

/-- `CMov::cmov` (src/field.rs:25-33). -/
def cmov (x y : FpElt) (b : Bool) : FpElt := if b then y else x

/-- `Zero::is_zero` (src/primefield/mod.rs:328-330). -/
def isZero (a : FpElt) : Bool := a.n == 0

/-- `Zero::set_zero` (src/primefield/mod.rs:331-333). -/
def setZero (a : FpElt) : FpElt := { a with n := 0 }

/-- `One::is_one` (src/primefield/mod.rs:340-342). -/
def isOne (a : FpElt) : Bool := a.n == 1

/-- `One::set_one` (src/primefield/mod.rs:343-345). -/
def setOne (a : FpElt) : FpElt := { a with n := 1 }

/-- `Zero::zero()` / `One::one()` without a field (src/primefield/mod.rs:325-327, 337-339): `unimplemented!()`. -/
def staticZero : R FpElt := R.panic .unimplemented

/-- see `staticZero` (src/primefield/mod.rs:337-339). -/
def staticOne : R FpElt := R.panic .unimplemented

/-- `Sgn0::sgn0` (src/primefield/mod.rs:317-322). `%` on `BigInt` truncates. -/
def sgn0 (a : FpElt) : Int := 1 - 2 * a.n.tmod 2

/-- `Serialize::to_bytes_be` (src/primefield/mod.rs:149-159). `field_len - bytes.len()` is a `usize` subtraction: a
negative result panics (debug) or asks for an impossible allocation, which also panics (release). -/
def toBytesBE (a : FpElt) : R (List Byte) := do
  let fieldLen := a.f.sizeBytes
  let n ← Big.toBiguint a.n
  let bytes := Big.toBytesBE n
  if fieldLen < bytes.length then R.panic .overflow
  else return List.replicate (fieldLen - bytes.length) 0 ++ bytes

/-- `Serialize::to_bytes_le` (src/primefield/mod.rs:161-165). -/
def toBytesLE (a : FpElt) : R (List Byte) := do
  let bytes ← a.toBytesBE
  return bytes.reverse

end FpElt

/-! Notation for arithmetic on outcomes, so that formulas read like the Rust code. -/

/-- `a + b` (src/primefield/mod.rs:170-181) where either side may have panicked. -/
def R.fadd (a b : R FpElt) : R FpElt := do (← a).add (← b)
/-- `a - b` (src/primefield/mod.rs:200-202) where either side may have panicked. -/
def R.fsub (a b : R FpElt) : R FpElt := do (← a).sub (← b)
/-- `a * b` (src/primefield/mod.rs:203-205) where either side may have panicked. -/
def R.fmul (a b : R FpElt) : R FpElt := do (← a).mul (← b)
/-- `a / b` (src/primefield/mod.rs:207-211) where either side may have panicked. -/
def R.fdiv (a b : R FpElt) : R FpElt := do (← a).div (← b)
/-- `-a` (src/primefield/mod.rs:212) where `a` may have panicked. -/
def R.fneg (a : R FpElt) : R FpElt := do (← a).neg
/-- `a ^ 2u32` (src/primefield/mod.rs:213-215) where `a` may have panicked. -/
def R.fsqr (a : R FpElt) : R FpElt := do (← a).powU32 2
/-- `1u32 / &a` (src/primefield/mod.rs:220-226) where `a` may have panicked. -/
def R.finv (a : R FpElt) : R FpElt := do FpElt.u32Div 1 (← a)

@[inherit_doc] scoped infixl:65 " +! " => R.fadd
@[inherit_doc] scoped infixl:65 " -! " => R.fsub
@[inherit_doc] scoped infixl:70 " *! " => R.fmul
@[inherit_doc] scoped infixl:70 " /! " => R.fdiv
@[inherit_doc] scoped prefix:75 "-!" => R.fneg
@[inherit_doc] scoped postfix:max " ^²" => R.fsqr

/-- `enum SqrtPrecmp` (src/primefield/mod.rs:248-254). -/
inductive SqrtPrecmp where
  | p3mod4 (exp : Int)
  | p5mod8 (exp : Int) (sqrtMinusOne : FpElt)
  | p9mod16
  | p1mod16
deriving DecidableEq, Repr

/-- `Fp::calc_sqrt_precmp` (src/primefield/mod.rs:263-287). `>>` on the nonnegative numbers here is floor division. -/
def Fp.calcSqrtPrecmp (f : Fp) : R SqrtPrecmp := do
  let p := f.p
  let res := p % 16
  if 3 = res % 4 then
    return .p3mod4 (((p : Int) + 1) / 4)
  else if 5 = res % 8 then
    let k : Int := ((p : Int) - 5) / 8
    let two ← f.one +! f.one
    let t ← two.powInt k
    let mut t0 ← t.powU32 2
    t0 ← t0 +! t0
    t0 ← t0 +! f.one
    t0 ← t0 *! t
    return .p5mod8 (k + 1) t0
  else if 9 = res % 16 then
    return .p9mod16
  else
    return .p1mod16

namespace FpElt

/-- `Sqrt::is_square` (src/primefield/mod.rs:292-296). -/
def isSquare (a : FpElt) : R Bool := do
  let res ← a.powInt (((a.f.p : Int) - 1) / 2)
  return res.isOne || res.isZero

/-- The `match pre` of `Sqrt::sqrt` (src/primefield/mod.rs:299-313), for given precomputed constants. -/
def sqrtWith (a : FpElt) (pre : SqrtPrecmp) : R FpElt :=
  match pre with
  | .p3mod4 exp => a.powInt exp
  | .p5mod8 exp sqrtMinusOne => do
    let t0 ← a.powInt exp
    let t1 ← t0.powU32 2
    let e := a == t1
    let t1 ← t0 *! sqrtMinusOne
    return cmov t1 t0 e
  | .p9mod16 => R.panic .unimplemented
  | .p1mod16 => R.panic .unimplemented

/-- `Sqrt::sqrt` (src/primefield/mod.rs:297-314) with the constants computed afresh (the cache of
`get_sqrt_precmp`, lines 256-262, is modelled in `Model/Cache.lean` and shown to be invisible). -/
def sqrt (a : FpElt) : R FpElt := do
  let pre ← a.f.calcSqrtPrecmp
  a.sqrtWith pre

end FpElt

end Redox
