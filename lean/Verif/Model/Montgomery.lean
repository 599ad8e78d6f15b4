import Verif.Model.PrimeField
import Verif.Model.Scalar

/-!
# src/montgomery/curve.rs and src/montgomery/point.rs
-/

namespace Redox.Montgomery

open Redox

/-- `Curve` (src/montgomery/curve.rs:24-34). -/
structure Curve where
  f : Fp
  a : FpElt
  b : FpElt
  s : FpElt
  r : Nat
  gx : FpElt
  gy : FpElt
  h : Nat
deriving DecidableEq, Repr

/-- `ProyCoordinates` (src/montgomery/point.rs:16-21). -/
structure ProyCoordinates where
  x : FpElt
  y : FpElt
  z : FpElt
deriving DecidableEq, Repr

/-- `Point` (src/montgomery/point.rs:22-26). -/
structure Point where
  e : Curve
  c : ProyCoordinates
deriving DecidableEq, Repr

namespace Curve

/-- `is_on_curve` (src/montgomery/curve.rs:68-74). -/
def isOnCurve (e : Curve) (pt : Point) : R Bool := do
  let p := pt.c
  let l ← e.b *! p.y ^² *! p.z
  let r ← p.x *! (p.x ^² +! e.a *! p.x *! p.z +! p.z ^²)
  let d ← l -! r
  return d.isZero

/-- `new_proy_point` (src/montgomery/curve.rs:37-41). -/
def newProyPoint (e : Curve) (c : ProyCoordinates) : R Point := do
  let pt : Point := ⟨e, c⟩
  doIfEq (← e.isOnCurve pt) (R.ok pt) .notValidPoint

/-- `new_point` (src/montgomery/curve.rs:48-56). -/
def newPoint (e : Curve) (x y : FpElt) : R Point := do
  let pt : Point := ⟨e, ⟨x, y, ← e.f.one⟩⟩
  doIfEq (← e.isOnCurve pt) (R.ok pt) .notValidPoint

/-- `new_scalar` (src/montgomery/curve.rs:57-59). -/
def newScalar (e : Curve) (k : Int) : R Scalar := Scalar.new k e.r

/-- `identity` (src/montgomery/curve.rs:60-67). -/
def identity (e : Curve) : R Point := do
  e.newProyPoint ⟨← e.f.zero, ← e.f.one, ← e.f.zero⟩

/-- `get_order` (src/montgomery/curve.rs:75-77). -/
def getOrder (e : Curve) : Nat := e.r

/-- `get_cofactor` (src/montgomery/curve.rs:78-80). -/
def getCofactor (e : Curve) : Int := e.h

/-- `get_field` (src/montgomery/curve.rs:81-83). -/
def getField (e : Curve) : Fp := e.f

/-- `get_generator` (src/montgomery/curve.rs:84-90). -/
def getGenerator (e : Curve) : R Point := do
  e.newProyPoint ⟨e.gx, e.gy, ← e.f.one⟩

/-- `decode` (src/montgomery/curve.rs:95-161). -/
def decode (e : Curve) (buf : List Byte) : R (Except DecodeError Point) := do
  let size := e.f.sizeBytes
  let blen := buf.length
  if !(blen == 1 || blen == size + 1 || blen == 2 * size + 1) then return .error .wrongSize
  else
    let tag ← index buf 0
    let xVal := Big.fromBytesBE (← slice buf 1 (size + 1))
    let p := e.f.p
    if xVal ≥ p then return .error .invalidX
    else if tag = 0 then
      if blen ≠ 1 then return .error .infinityForm
      else return .ok (← e.identity)
    else if tag = 4 then
      if blen ≠ 2 * size + 1 then return .error .invalidBytes
      else
        let x ← e.f.elt xVal
        let yVal := Big.fromBytesBE (← slice buf (size + 1) blen)
        if yVal ≥ p then return .error .invalidY
        else
          let y ← e.f.elt yVal
          return .ok (← e.newPoint x y)
    else if tag = 2 ∨ tag = 3 then
      if blen ≠ size + 1 then return .error .invalidBytes
      else
        let one ← e.f.one
        let x ← e.f.elt xVal
        let x_a ← x +! e.a
        let xx_ax ← x_a *! x
        let xx_ax_1 ← xx_ax +! one
        let byy ← xx_ax_1 *! x
        let b_inv ← one /! e.b
        let yy ← byy *! b_inv
        let y_sqrt ← yy.sqrt
        let s := y_sqrt.sgn0
        let deserTag := UInt8.ofNat (signBit s + 2)
        let y ← if tag ≠ deserTag then y_sqrt.neg else R.ok y_sqrt
        return .ok (← e.newPoint x y)
    else return .error .invalidTag

end Curve

namespace Point

/-- `is_zero` (src/montgomery/point.rs:30-32). -/
def isZero (P : Point) : Bool := P.c.x.isZero && !P.c.y.isZero && P.c.z.isZero

/-- `normalize` (src/montgomery/point.rs:67-72): the point after the call. -/
def normalize (P : Point) : R Point := do
  let inv_z ← FpElt.u32Div 1 P.c.z
  let x ← P.c.x *! inv_z
  let y ← P.c.y *! inv_z
  return { P with c := ⟨x, y, P.c.z.setOne⟩ }

/-- `encode` (src/montgomery/point.rs:35-63). -/
def encode (P : Point) (compress : Bool) : R (List Byte) := do
  let pNormal ← P.normalize
  if pNormal.isZero then return [0]
  else
    let x := pNormal.c.x
    let y := pNormal.c.y
    let xBytes ← x.toBytesBE
    let yBytes ← y.toBytesBE
    if compress then
      let tag := UInt8.ofNat (signBit y.sgn0 + 2)
      return tag :: xBytes
    else return 4 :: (xBytes ++ yBytes)

/-- `core_neg`, unary `-` (src/montgomery/point.rs:73-79, 136). -/
def neg (P : Point) : R Point := do
  P.e.newProyPoint ⟨P.c.x, ← P.c.y.neg, P.c.z⟩

/-- The coordinates computed by `core_add` (src/montgomery/point.rs:80-103). -/
def coreAddCoords (P Q : Point) : R ProyCoordinates := do
  let (x1, y1, z1) := (P.c.x, P.c.y, P.c.z)
  let (x2, y2, z2) := (Q.c.x, Q.c.y, Q.c.z)
  let (a_ec, s_ec) := (P.e.a, P.e.s)
  let t0 ← x1 *! x2
  let t1 ← y1 *! y2
  let t2 ← z1 *! z2
  let t3 ← x1 *! y2
  let t4 ← x2 *! y1
  let t5 ← y1 *! z2
  let t6 ← y2 *! z1
  let t7 ← x1 *! z2
  let t8 ← x2 *! z1
  let t9 ← t7 +! t8
  let ta ← t9 +! (t0 *! a_ec)
  let rr ← t5 +! t6
  let tt ← ta -! t1
  let vv ← t9 *! a_ec +! t0 +! t0 +! t0 +! t2
  let ss ← (t3 -! t4) *! s_ec +! t0 -! t2
  let uu ← (t7 -! t8) *! s_ec -! t3 -! t4
  let ww ← (t5 -! t6) *! s_ec +! ta +! t1
  let x3 ← rr *! ss -! tt *! uu
  let y3 ← tt *! ww -! vv *! ss
  let z3 ← vv *! uu -! rr *! ww
  return ⟨x3, y3, z3⟩

/-- `core_add` (src/montgomery/point.rs:80-104). -/
def coreAdd (P Q : Point) : R Point := do
  P.e.newProyPoint (← P.coreAddCoords Q)

/-- binary `+` (src/montgomery/point.rs:132-134). -/
def add (P Q : Point) : R Point := doIfEq (P.e == Q.e) (P.coreAdd Q) .differentCurves

/-- binary `-` (src/montgomery/point.rs:135). -/
def sub (P Q : Point) : R Point := do P.add (← Q.neg)

/-- The loop of `core_mul` (src/montgomery/point.rs:107-112) over the remaining bits. -/
def mulLoop (P : Point) : List Bool → Point → R Point
  | [], q => R.ok q
  | ki :: bits, q => do
    let q ← q.add q
    let q ← if ki then q.add P else R.ok q
    mulLoop P bits q

/-- `core_mul` (src/montgomery/point.rs:105-114). -/
def coreMul (prof : Profile) (P : Point) (k : Scalar) : R Point := do
  let q ← P.e.identity
  let bits ← k.iterLR prof
  P.mulLoop bits q

/-- `Point * Scalar` (src/montgomery/point.rs:137-140). -/
def mul (prof : Profile) (P : Point) (k : Scalar) : R Point :=
  doIfEq ((P.e.r : Int) == k.r) (P.coreMul prof k) .scalarMismatch

/-- `is_two_torsion` (src/montgomery/point.rs:115-117). -/
def isTwoTorsion (P : Point) : Bool := P.c.y.isZero && P.c.z.isOne

/-- `==` (src/montgomery/point.rs:123-129). -/
def eq (P Q : Point) : R Bool := do
  let x1z2 ← P.c.x *! Q.c.z
  let z1x2 ← P.c.z *! Q.c.x
  let y1z2 ← P.c.y *! Q.c.z
  let z1y2 ← P.c.z *! Q.c.y
  return P.e == Q.e && x1z2 == z1x2 && y1z2 == z1y2

end Point

end Redox.Montgomery
