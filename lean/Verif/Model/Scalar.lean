import Verif.Model.BigInt

/-!
# src/weierstrass/scalar.rs, src/montgomery/scalar.rs, src/edwards/scalar.rs

The three files are the same code up to imports and to whether and how `PartialEq` is implemented; one model serves all three.
Line numbers refer to src/weierstrass/scalar.rs.
-/

namespace Redox

/-- `Scalar { k, r }` (src/weierstrass/scalar.rs:17-21). -/
structure Scalar where
  k : Int
  r : Int
deriving DecidableEq, Repr

namespace Scalar

/-- `Scalar::new` (src/weierstrass/scalar.rs:24-28). -/
def new (k : Int) (r : Nat) : R Scalar := do
  let k ← Big.modFloor k r
  return ⟨k, r⟩

/-- `Serialize::to_bytes_be` (src/weierstrass/scalar.rs:34-44); see `FpElt.toBytesBE` for the subtraction. -/
def toBytesBE (a : Scalar) : R (List Byte) := do
  let fieldLen := (Big.bits a.r.natAbs + 7) / 8
  let k ← Big.toBiguint a.k
  let bytes := Big.toBytesBE k
  if fieldLen < bytes.length then R.panic .overflow
  else return List.replicate (fieldLen - bytes.length) 0 ++ bytes

/-- `Serialize::to_bytes_le` (src/weierstrass/scalar.rs:45-49). -/
def toBytesLE (a : Scalar) : R (List Byte) := do
  let buf ← a.toBytesBE
  return buf.reverse

/-- `Scalar::red` (src/weierstrass/scalar.rs:54-58). -/
def red (a : Scalar) (k : Int) : R Scalar := do
  let k ← Big.modFloor k a.r
  return ⟨k, a.r⟩

/-- `Scalar::inv_mod` (src/weierstrass/scalar.rs:60-63). -/
def invMod (a : Scalar) : R Scalar := do
  let v ← Big.modpow a.k (a.r - 2) a.r
  a.red v

/-- `+` (src/weierstrass/scalar.rs:66-68). -/
def add (a b : Scalar) : R Scalar := doIfEq (a.r == b.r) (a.red (a.k + b.k)) .differentGroups

/-- binary `-` (src/weierstrass/scalar.rs:69-71). -/
def sub (a b : Scalar) : R Scalar := doIfEq (a.r == b.r) (a.red (a.k - b.k)) .differentGroups

/-- `*` (src/weierstrass/scalar.rs:72-74). -/
def mul (a b : Scalar) : R Scalar := doIfEq (a.r == b.r) (a.red (a.k * b.k)) .differentGroups

/-- `/` (src/weierstrass/scalar.rs:75-79). -/
def div (a b : Scalar) : R Scalar := do
  let i ← b.invMod
  a.mul i

/-- unary `-` (src/weierstrass/scalar.rs:80). -/
def neg (a : Scalar) : R Scalar := a.red (-a.k)

/-- `u32 / &Scalar` (src/weierstrass/scalar.rs:82-88). -/
def u32Div (c : Nat) (a : Scalar) : R Scalar := doIfEq (c == 1) a.invMod .invNum

end Scalar

/-- `usize::MAX + 1` on the 64-bit targets modelled (the `usize` of src/weierstrass/scalar.rs:113-118). -/
def usizeMod : Nat := 2 ^ 64

/-- `struct Iterino` (src/weierstrass/scalar.rs:112-117). -/
structure Iterino where
  l : Nat
  i : Nat
  v : List UInt32
  isLR : Bool

namespace Iterino

/-- `Iterator::next` (src/weierstrass/scalar.rs:121-135): the item, if any, and the state after the call.
`overflowing_sub` wraps at zero; `+= 1` cannot overflow below `l`. -/
def next (it : Iterino) : R (Option Bool × Iterino) :=
  if it.i < it.l then do
    let w ← index it.v (it.i / 32)
    let bit := w.toNat >>> (it.i % 32)
    let b := bit % 2 != 0
    let i' := if it.isLR then (if it.i = 0 then usizeMod - 1 else it.i - 1) else it.i + 1
    return (some b, { it with i := i' })
  else return (none, it)

/-- All items produced until the first `None` (what the `for` loops of src/weierstrass/point.rs:195, src/montgomery/point.rs:107, src/edwards/point.rs:96 see; `next` is
src/weierstrass/scalar.rs:120-137). -/
def collect : (fuel : Nat) → Iterino → R (List Bool)
  | 0, _ => R.panic .diverge
  | fuel + 1, it => do
    let (o, it') ← it.next
    match o with
    | none => return []
    | some b =>
      let bs ← collect fuel it'
      return b :: bs

/-- The item returned by the last of `n + 1` consecutive calls of `next` (src/weierstrass/scalar.rs:120-137). -/
def nth : Nat → Iterino → R (Option Bool)
  | 0, it => do return (← it.next).1
  | n + 1, it => do nth n (← it.next).2

end Iterino

namespace Scalar

/-- `Scalar::iter_lr` (src/weierstrass/scalar.rs:139-145): the iterator. `l - 1usize` underflows when `k = 0`:
a panic with overflow checks, `usize::MAX` without. `to_u32_digits` drops the sign. -/
def startLR (prof : Profile) (a : Scalar) : R Iterino :=
  let l := Big.bits a.k.natAbs
  let v := Big.toU32Digits a.k.natAbs
  if l = 0 then
    match prof with
    | .debug => R.panic .overflow
    | .release => R.ok ⟨l, usizeMod - 1, v, true⟩
  else R.ok ⟨l, l - 1, v, true⟩

/-- `Scalar::iter_rl` (src/weierstrass/scalar.rs:146-152): the iterator. -/
def startRL (a : Scalar) : Iterino :=
  let l := Big.bits a.k.natAbs
  let v := Big.toU32Digits a.k.natAbs
  ⟨l, 0, v, false⟩

/-- `iter_lr` (src/weierstrass/scalar.rs:139-145) run to the end. -/
def iterLR (prof : Profile) (a : Scalar) : R (List Bool) := do
  (← a.startLR prof).collect (Big.bits a.k.natAbs + 1)

/-- `iter_rl` (src/weierstrass/scalar.rs:146-152) run to the end. -/
def iterRL (a : Scalar) : R (List Bool) := a.startRL.collect (Big.bits a.k.natAbs + 1)

/-- `Display` (src/weierstrass/scalar.rs:155-159). -/
def display (a : Scalar) : List Byte := Big.showInt a.k

end Scalar

/-- `(s >> 1) & 1` on the `i32` result of `sgn0` (src/weierstrass/point.rs:58, src/weierstrass/curve.rs:147,
src/edwards/point.rs:44): arithmetic shift, so 0 for `1` and 1 for `-1`. -/
def signBit (s : Int) : Nat := ((s / 2) % 2).toNat

/-- Errors returned (not panicked) by the `Decode` implementations, one per message (src/weierstrass/curve.rs:91-157,
src/montgomery/curve.rs:93-162, src/edwards/curve.rs:105-147). -/
inductive DecodeError where
  /-- "Wrong input buffer size." -/
  | wrongSize
  /-- "Invalid x coordinate" -/
  | invalidX
  /-- "Point at infinity should just be a single zero byte" -/
  | infinityForm
  /-- "Invalid bytes for deserialization" -/
  | invalidBytes
  /-- "Invalid y coordinate" -/
  | invalidY
  /-- "Invalid tag specified" -/
  | invalidTag
  /-- "Invalid y value chosen" (Edwards) -/
  | invalidYChosen
  /-- "Failed decoding on square root" (Edwards) -/
  | sqrtFailed
deriving DecidableEq, Repr

end Redox
