import Verif.Model.Basic

/-!
# The parts of num-bigint 0.4 / num-integer 0.1 that redox-ecc calls

`BigInt` is `Int`, `BigUint` is `Nat`. These definitions state the documented behaviour of the external
crates; they are assumptions about code that is not in /repo (trusted base).
-/

namespace Redox

/-- A Rust byte, `u8` (e.g. src/ops.rs:71-79). -/
abbrev Byte := UInt8

namespace Big

/-- `Integer::mod_floor` for `BigInt`: floored remainder, panics on a zero modulus (called at
src/primefield/mod.rs:57, 186, 241, 350, src/weierstrass/scalar.rs:26, 55). -/
def modFloor (a m : Int) : R Int :=
  if m = 0 then R.panic .divByZero else R.ok (a.fmod m)

/-- Left-to-right square-and-multiply on `Nat`; `fuel` bounds the number of exponent bits. Auxiliary to `modpow`
(called at src/primefield/mod.rs:233, src/weierstrass/scalar.rs:62). -/
def powModAux (b m : Nat) : (fuel : Nat) → (e : Nat) → Nat
  | 0, _ => 1 % m
  | fuel + 1, e =>
    if e = 0 then 1 % m
    else
      let h := powModAux b m fuel (e / 2)
      if e % 2 = 1 then (h * h % m) * b % m else h * h % m

/-- `b ^ e mod m` on naturals (`Math/PowMod.lean` proves it equals `b ^ e % m`). Auxiliary to `modpow` (called at
src/primefield/mod.rs:233, src/weierstrass/scalar.rs:62). -/
def powMod (b e m : Nat) : Nat := powModAux b m (e.log2 + 1) e

/-- `BigInt::modpow` (called at src/primefield/mod.rs:233, src/weierstrass/scalar.rs:62): panics on negative exponent or zero modulus, otherwise floored `self ^ e mod m`.
The base is first reduced (for the positive moduli used here this is the floored remainder of the power). -/
def modpow (b e m : Int) : R Int :=
  if e < 0 then R.panic .negExponent
  else if m = 0 then R.panic .divByZero
  else R.ok ((powMod (b.emod m).toNat e.toNat m.natAbs : Int).fmod m)

/-- `BigUint::bits` / `BigInt::bits` (called at src/primefield/mod.rs:71, src/weierstrass/scalar.rs:35, 140, 147,
src/edwards/curve.rs:110, src/edwards/point.rs:47): length of the binary representation, 0 for 0. -/
def bits (n : Nat) : Nat := if n = 0 then 0 else n.log2 + 1

/-- Base-`base` digits of `n`, least significant first; `fuel` bounds their number. Empty for 0. Auxiliary to the conversions below
(called at src/primefield/mod.rs:151, src/weierstrass/scalar.rs:142). -/
def digits (base : Nat) : (fuel : Nat) → (n : Nat) → List Nat
  | 0, _ => []
  | fuel + 1, n => if n = 0 then [] else n % base :: digits base fuel (n / base)

/-- `BigUint::to_bytes_le` (/repo calls the `be` version, src/primefield/mod.rs:151): base-256 digits, least significant first; zero gives `[0]`. -/
def toBytesLE (n : Nat) : List Byte :=
  if n = 0 then [0] else (digits 256 (bits n) n).map UInt8.ofNat

/-- `BigUint::to_bytes_be` (called at src/primefield/mod.rs:151, src/weierstrass/scalar.rs:36). -/
def toBytesBE (n : Nat) : List Byte := (toBytesLE n).reverse

/-- `BigUint::from_bytes_le` (called at src/primefield/mod.rs:82, src/edwards/curve.rs:119). The empty slice is 0. -/
def fromBytesLE : List Byte → Nat
  | [] => 0
  | b :: bs => b.toNat + 256 * fromBytesLE bs

/-- `BigUint::from_bytes_be` (called at src/primefield/mod.rs:78, src/weierstrass/curve.rs:101, 125, src/montgomery/curve.rs:103, 127). -/
def fromBytesBE (bs : List Byte) : Nat := fromBytesLE bs.reverse

/-- `to_u32_digits` (called at src/weierstrass/scalar.rs:142, 149, src/quadraticfield/mod.rs:242): base-`2^32` digits, least significant first; empty for zero. -/
def toU32Digits (n : Nat) : List UInt32 :=
  (digits (2 ^ 32) (bits n) n).map UInt32.ofNat

/-- `BigInt::to_biguint().unwrap()` (src/primefield/mod.rs:151, 241, src/weierstrass/scalar.rs:36, src/quadraticfield/mod.rs:261). -/
def toBiguint (n : Int) : R Nat :=
  if n < 0 then R.panic .unwrapNone else R.ok n.toNat

/-! ### `BigInt::parse_bytes`

On valid UTF-8 it is `BigInt::from_str_radix(..).ok()`. We model the string as its list of bytes. -/

/-- Value of one byte as a digit (num-bigint `BigUint::from_str_radix`): `0-9`, `a-z`, `A-Z`. Auxiliary to
`parseInt` (called at src/primefield/mod.rs:134). -/
def digitVal (c : Byte) : Nat :=
  if 48 ≤ c.toNat ∧ c.toNat ≤ 57 then c.toNat - 48
  else if 97 ≤ c.toNat ∧ c.toNat ≤ 122 then c.toNat - 97 + 10
  else if 65 ≤ c.toNat ∧ c.toNat ≤ 90 then c.toNat - 65 + 10
  else 255

/-- Digits loop of `BigUint::from_str_radix`: `_` is skipped, anything else must be a digit below the radix.
Auxiliary to `parseInt` (called at src/primefield/mod.rs:134). -/
def parseDigits (radix : Nat) : List Byte → (acc : Nat) → Option Nat
  | [], acc => some acc
  | c :: cs, acc =>
    if c = 95 then parseDigits radix cs acc
    else if digitVal c < radix then parseDigits radix cs (acc * radix + digitVal c)
    else none

/-- `BigUint::from_str_radix` (called, through `from_str`, at src/weierstrass/curve.rs:183-188): one optional `+` (not followed by another), non-empty, must not lead with `_`. -/
def parseNat (radix : Nat) (s : List Byte) : Option Nat :=
  let s := match s with
    | 43 :: t => if t.head? = some 43 then s else t
    | _ => s
  match s with
  | [] => none
  | 95 :: _ => none
  | _ => parseDigits radix s 0

/-- `BigInt::parse_bytes` / `BigInt::from_str_radix` (called at src/primefield/mod.rs:134): optional `-`, then a `BigUint`. -/
def parseInt (radix : Nat) (s : List Byte) : Option Int :=
  match s with
  | 45 :: t =>
    if t.head? = some 43 then (parseNat radix s).map (fun n : Nat => -(n : Int))
    else (parseNat radix t).map (fun n : Nat => -(n : Int))
  | _ => (parseNat radix s).map (fun n : Nat => (n : Int))

/-- `Display` of a `BigUint` (used by src/primefield/mod.rs:348-359 and the other `Display` implementations): decimal digits, most significant first; `0` for zero. -/
def showNat (n : Nat) : List Byte :=
  if n = 0 then [48] else ((digits 10 (bits n) n).map fun d => UInt8.ofNat (48 + d)).reverse

/-- `Display` of a `BigInt` (used by src/weierstrass/scalar.rs:155-159 and the other `Display` implementations). -/
def showInt (n : Int) : List Byte := if n < 0 then 45 :: showNat n.natAbs else showNat n.natAbs

end Big

end Redox
