import Verif.Model.PrimeField
import Verif.Model.Scalar

/-!
# src/edwards/curve.rs and src/edwards/point.rs
-/

namespace Redox.Edwards

open Redox

/-- `Curve` (src/edwards/curve.rs:22-31). -/
structure Curve where
  f : Fp
  a : FpElt
  d : FpElt
  r : Nat
  gx : FpElt
  gy : FpElt
  h : Nat
deriving DecidableEq, Repr

/-- `ProyCoordinates` (src/edwards/point.rs:16-22). -/
structure ProyCoordinates where
  x : FpElt
  y : FpElt
  t : FpElt
  z : FpElt
deriving DecidableEq, Repr

/-- `Point` (src/edwards/point.rs:23-27). -/
structure Point where
  e : Curve
  c : ProyCoordinates
deriving DecidableEq, Repr

namespace Curve

/-- `is_on_curve` (src/edwards/curve.rs:72-85). -/
def isOnCurve (e : Curve) (pt : Point) : R Bool := do
  let p := pt.c
  let x2 ← p.x ^²
  let y2 ← p.y ^²
  let t2 ← p.t ^²
  let z2 ← p.z ^²
  let l1 ← x2 *! e.a +! y2
  let r1 ← t2 *! e.d +! z2
  let l2 ← p.x *! p.y
  let r2 ← p.t *! p.z
  let e1 ← l1 -! r1
  let e2 ← l2 -! r2
  return e1.isZero && e2.isZero

/-- `new_proy_point` (src/edwards/curve.rs:34-38). -/
def newProyPoint (e : Curve) (c : ProyCoordinates) : R Point := do
  let pt : Point := ⟨e, c⟩
  doIfEq (← e.isOnCurve pt) (R.ok pt) .notValidPoint

/-- `new_point` (src/edwards/curve.rs:45-58). -/
def newPoint (e : Curve) (x y : FpElt) : R Point := do
  let pt : Point := ⟨e, ⟨x, y, ← x *! y, ← e.f.one⟩⟩
  doIfEq (← e.isOnCurve pt) (R.ok pt) .notValidPoint

/-- `new_scalar` (src/edwards/curve.rs:60-62). -/
def newScalar (e : Curve) (k : Int) : R Scalar := Scalar.new k e.r

/-- `identity` (src/edwards/curve.rs:63-71). -/
def identity (e : Curve) : R Point := do
  e.newProyPoint ⟨← e.f.zero, ← e.f.one, ← e.f.zero, ← e.f.one⟩

/-- `get_order` (src/edwards/curve.rs:86-88). -/
def getOrder (e : Curve) : Nat := e.r

/-- `get_cofactor` (src/edwards/curve.rs:89-91). -/
def getCofactor (e : Curve) : Int := e.h

/-- `get_field` (src/edwards/curve.rs:92-94). -/
def getField (e : Curve) : Fp := e.f

/-- `get_generator` (src/edwards/curve.rs:95-102). -/
def getGenerator (e : Curve) : R Point := do
  e.newProyPoint ⟨e.gx, e.gy, ← e.gx *! e.gy, ← e.f.one⟩

/-- `decode` (src/edwards/curve.rs:108-146). `size ≥ 1`, so `size - 1` does not underflow. -/
def decode (e : Curve) (buf : List Byte) : R (Except DecodeError Point) := do
  let modulus := e.f.p
  let size := (Big.bits modulus + 1 + 7) / 8
  if buf.length ≠ size then return .error .wrongSize
  else
    let lastByte := size - 1
    let last ← index buf lastByte
    let x_0 := (last >>> 7) &&& 1
    let yBytes := buf.set lastByte (last &&& 127)
    let y_zz := Big.fromBytesLE yBytes
    if y_zz ≥ modulus then return .error .invalidYChosen
    else
      let y ← e.f.elt y_zz
      let yy ← y *! y
      let minus_one ← -! e.f.one
      let u ← yy +! minus_one
      let v ← (e.d *! yy) -! e.a
      let u_inv_v ← u /! v
      let x_sqrt ← u_inv_v.sqrt
      if x_sqrt = (← e.f.zero) ∧ x_0 = 1 then return .error .sqrtFailed
      else
        let tag := UInt8.ofNat (signBit x_sqrt.sgn0)
        let x ← if tag ≠ x_0 then x_sqrt.neg else R.ok x_sqrt
        return .ok (← e.newPoint x y)

end Curve

namespace Point

/-- `is_zero` (src/edwards/point.rs:31-33). -/
def isZero (P : Point) : Bool := P.c.x.isZero && !P.c.y.isZero && P.c.t.isZero && !P.c.z.isZero

/-- `normalize` (src/edwards/point.rs:56-62): the point after the call. -/
def normalize (P : Point) : R Point := do
  let inv_z ← FpElt.u32Div 1 P.c.z
  let x ← P.c.x *! inv_z
  let y ← P.c.y *! inv_z
  let t ← x *! y
  return { P with c := ⟨x, y, t, P.c.z.setOne⟩ }

/-- `encode` (src/edwards/point.rs:37-52); the `compress` argument is ignored by the code. -/
def encode (P : Point) (_compress : Bool) : R (List Byte) := do
  let pNormal ← P.normalize
  let x := pNormal.c.x
  let y := pNormal.c.y
  let x_0 := UInt8.ofNat (signBit x.sgn0 <<< 7)
  let enc ← y.toBytesLE
  let size := (Big.bits P.e.f.p + 1 + 7) / 8
  let enc := (enc ++ List.replicate (size - enc.length) 0).take size
  let last := enc.length - 1
  let b ← index enc last
  return enc.set last (b ||| x_0)

/-- `core_neg`, unary `-` (src/edwards/point.rs:63-70, 124). -/
def neg (P : Point) : R Point := do
  P.e.newProyPoint ⟨← P.c.x.neg, P.c.y, ← P.c.t.neg, P.c.z⟩

/-- The coordinates computed by `core_add` (src/edwards/point.rs:71-92). -/
def coreAddCoords (P Q : Point) : R ProyCoordinates := do
  let (x1, y1, t1, z1) := (P.c.x, P.c.y, P.c.t, P.c.z)
  let (x2, y2, t2, z2) := (Q.c.x, Q.c.y, Q.c.t, Q.c.z)
  let (a_ec, d_ec) := (P.e.a, P.e.d)
  let aa ← x1 *! x2 --                               A = X1 * X2
  let bb ← y1 *! y2 --                               B = Y1 * Y2
  let cc ← d_ec *! t1 *! t2 --                       C = d*T1 * T2
  let dd ← z1 *! z2 --                               D = Z1 * Z2
  let ee ← (x1 +! y1) *! (x2 +! y2) -! aa -! bb --   E = (X1 + Y1) * (X2 + Y2) - A - B
  let ff ← dd -! cc --                               F = D - C
  let gg ← dd +! cc --                               G = D + C
  let hh ← bb -! aa *! a_ec --                       H = B - a*A
  let x3 ← ee *! ff --                               X3 = E * F
  let y3 ← gg *! hh --                               Y3 = G * H
  let t3 ← ee *! hh --                               T3 = E * H
  let z3 ← ff *! gg --                               Z3 = F * G
  return ⟨x3, y3, t3, z3⟩

/-- `core_add` (src/edwards/point.rs:71-93). -/
def coreAdd (P Q : Point) : R Point := do
  P.e.newProyPoint (← P.coreAddCoords Q)

/-- binary `+` (src/edwards/point.rs:120-122). -/
def add (P Q : Point) : R Point := doIfEq (P.e == Q.e) (P.coreAdd Q) .differentCurves

/-- binary `-` (src/edwards/point.rs:123). -/
def sub (P Q : Point) : R Point := do P.add (← Q.neg)

/-- The loop of `core_mul` (src/edwards/point.rs:96-101) over the remaining bits. -/
def mulLoop (P : Point) : List Bool → Point → R Point
  | [], q => R.ok q
  | ki :: bits, q => do
    let q ← q.add q
    let q ← if ki then q.add P else R.ok q
    mulLoop P bits q

/-- `core_mul` (src/edwards/point.rs:94-103). -/
def coreMul (prof : Profile) (P : Point) (k : Scalar) : R Point := do
  let q ← P.e.identity
  let bits ← k.iterLR prof
  P.mulLoop bits q

/-- `Point * Scalar` (src/edwards/point.rs:125-128). -/
def mul (prof : Profile) (P : Point) (k : Scalar) : R Point :=
  doIfEq ((P.e.r : Int) == k.r) (P.coreMul prof k) .scalarMismatch

/-- `==` (src/edwards/point.rs:108-117). -/
def eq (P Q : Point) : R Bool := do
  let x1z2 ← P.c.x *! Q.c.z
  let z1x2 ← P.c.z *! Q.c.x
  let y1z2 ← P.c.y *! Q.c.z
  let z1y2 ← P.c.z *! Q.c.y
  let t1z2 ← P.c.t *! Q.c.z
  let z1t2 ← P.c.z *! Q.c.t
  return P.e == Q.e && x1z2 == z1x2 && y1z2 == z1y2 && t1z2 == z1t2

end Point

end Redox.Edwards
