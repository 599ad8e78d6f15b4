import Verif.Model.FieldTrace

/-!
# Encoding and decoding with a record of the field operations they call

The functions `encode` and `decode` of `Model/Weierstrass.lean`, `Model/Montgomery.lean` and `Model/Edwards.lean` with the addition of
`Model/FieldTrace.lean`: they also return which operations on elements of the prime field were called. Conversions between bytes and integers and
comparisons are not recorded. That forgetting the record gives back the original functions is part of the theorems in `Props/CodecTraceProps.lean`.
-/

namespace Redox

/-- A computation that calls no field operation. Auxiliary, no line of /repo. -/
def T.lift {α : Type u} (x : R α) : T α := ⟨x, []⟩

/-- `decode` (src/weierstrass/curve.rs:93-156) with a record. -/
def Weierstrass.Curve.decodeF (e : Curve) (buf : List Byte) : T (Except DecodeError Point) := do
  let size := e.f.sizeBytes
  let blen := buf.length
  if !(blen == 1 || blen == size + 1 || blen == 2 * size + 1) then return .error .wrongSize
  else
    let tag ← T.lift (index buf 0)
    let xBytes ← T.lift (slice buf 1 (size + 1))
    let xVal := Big.fromBytesBE xBytes
    let p := e.f.p
    if xVal ≥ p then return .error .invalidX
    else if tag = 0 then
      if blen ≠ 1 then return .error .infinityForm
      else return .ok (← e.identityF)
    else if tag = 4 then
      if blen ≠ 2 * size + 1 then return .error .invalidBytes
      else
        let x ← e.f.eltF xVal
        let yBytes ← T.lift (slice buf (size + 1) blen)
        let yVal := Big.fromBytesBE yBytes
        if yVal ≥ p then return .error .invalidY
        else
          let y ← e.f.eltF yVal
          return .ok (← e.newPointF x y)
    else if tag = 2 ∨ tag = 3 then
      if blen ≠ size + 1 then return .error .invalidBytes
      else
        let x ← e.f.eltF xVal
        let xx ← x *ₜ x
        let xx_a ← xx +ₜ e.a
        let xxx_ax ← xx_a *ₜ x
        let xxx_ax_b ← xxx_ax +ₜ e.b
        let y_sqrt ← xxx_ax_b.sqrtF
        let s := y_sqrt.sgn0
        let deserTag := UInt8.ofNat (signBit s + 2)
        let y ← if tag ≠ deserTag then y_sqrt.negF else T.ok y_sqrt
        return .ok (← e.newPointF x y)
    else return .error .invalidTag

/-- `encode` (src/weierstrass/point.rs:40-68) with a record. -/
def Weierstrass.Point.encodeF (P : Point) (compress : Bool) : T (List Byte) := do
  let pNormal ← P.normalizeF
  if pNormal.isZero then return [0]
  else
    let x := pNormal.c.x
    let y := pNormal.c.y
    let xBytes ← T.lift x.toBytesBE
    let yBytes ← T.lift y.toBytesBE
    if compress then
      let tag := UInt8.ofNat (signBit y.sgn0 + 2)
      return tag :: xBytes
    else return 4 :: (xBytes ++ yBytes)

/-- `decode` (src/montgomery/curve.rs:95-161) with a record. -/
def Montgomery.Curve.decodeF (e : Curve) (buf : List Byte) : T (Except DecodeError Point) := do
  let size := e.f.sizeBytes
  let blen := buf.length
  if !(blen == 1 || blen == size + 1 || blen == 2 * size + 1) then return .error .wrongSize
  else
    let tag ← T.lift (index buf 0)
    let xBytes ← T.lift (slice buf 1 (size + 1))
    let xVal := Big.fromBytesBE xBytes
    let p := e.f.p
    if xVal ≥ p then return .error .invalidX
    else if tag = 0 then
      if blen ≠ 1 then return .error .infinityForm
      else return .ok (← e.identityF)
    else if tag = 4 then
      if blen ≠ 2 * size + 1 then return .error .invalidBytes
      else
        let x ← e.f.eltF xVal
        let yBytes ← T.lift (slice buf (size + 1) blen)
        let yVal := Big.fromBytesBE yBytes
        if yVal ≥ p then return .error .invalidY
        else
          let y ← e.f.eltF yVal
          return .ok (← e.newPointF x y)
    else if tag = 2 ∨ tag = 3 then
      if blen ≠ size + 1 then return .error .invalidBytes
      else
        let one ← e.f.oneF
        let x ← e.f.eltF xVal
        let x_a ← x +ₜ e.a
        let xx_ax ← x_a *ₜ x
        let xx_ax_1 ← xx_ax +ₜ one
        let byy ← xx_ax_1 *ₜ x
        let b_inv ← one /ₜ e.b
        let yy ← byy *ₜ b_inv
        let y_sqrt ← yy.sqrtF
        let s := y_sqrt.sgn0
        let deserTag := UInt8.ofNat (signBit s + 2)
        let y ← if tag ≠ deserTag then y_sqrt.negF else T.ok y_sqrt
        return .ok (← e.newPointF x y)
    else return .error .invalidTag

/-- `encode` (src/montgomery/point.rs:35-63) with a record. -/
def Montgomery.Point.encodeF (P : Point) (compress : Bool) : T (List Byte) := do
  let pNormal ← P.normalizeF
  if pNormal.isZero then return [0]
  else
    let x := pNormal.c.x
    let y := pNormal.c.y
    let xBytes ← T.lift x.toBytesBE
    let yBytes ← T.lift y.toBytesBE
    if compress then
      let tag := UInt8.ofNat (signBit y.sgn0 + 2)
      return tag :: xBytes
    else return 4 :: (xBytes ++ yBytes)

/-- `decode` (src/edwards/curve.rs:108-146) with a record. -/
def Edwards.Curve.decodeF (e : Curve) (buf : List Byte) : T (Except DecodeError Point) := do
  let modulus := e.f.p
  let size := (Big.bits modulus + 1 + 7) / 8
  if buf.length ≠ size then return .error .wrongSize
  else
    let lastByte := size - 1
    let last ← T.lift (index buf lastByte)
    let x_0 := (last >>> 7) &&& 1
    let yBytes := buf.set lastByte (last &&& 127)
    let y_zz := Big.fromBytesLE yBytes
    if y_zz ≥ modulus then return .error .invalidYChosen
    else
      let y ← e.f.eltF y_zz
      let yy ← y *ₜ y
      let minus_one ← -ₜ e.f.oneF
      let u ← yy +ₜ minus_one
      let v ← (e.d *ₜ yy) -ₜ e.a
      let u_inv_v ← u /ₜ v
      let x_sqrt ← u_inv_v.sqrtF
      let zero ← e.f.zeroF
      if x_sqrt = zero ∧ x_0 = 1 then return .error .sqrtFailed
      else
        let tag := UInt8.ofNat (signBit x_sqrt.sgn0)
        let x ← if tag ≠ x_0 then x_sqrt.negF else T.ok x_sqrt
        return .ok (← e.newPointF x y)

/-- `encode` (src/edwards/point.rs:37-52) with a record. -/
def Edwards.Point.encodeF (P : Point) (_compress : Bool) : T (List Byte) := do
  let pNormal ← P.normalizeF
  let x := pNormal.c.x
  let y := pNormal.c.y
  let x_0 := UInt8.ofNat (signBit x.sgn0 <<< 7)
  let enc ← T.lift y.toBytesLE
  let size := (Big.bits P.e.f.p + 1 + 7) / 8
  let enc := (enc ++ List.replicate (size - enc.length) 0).take size
  let last := enc.length - 1
  let b ← T.lift (index enc last)
  return enc.set last (b ||| x_0)

end Redox
