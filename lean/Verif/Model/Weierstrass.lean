import Verif.Model.PrimeField
import Verif.Model.Scalar

/-!
# src/weierstrass/curve.rs and src/weierstrass/point.rs
-/

namespace Redox.Weierstrass

open Redox

/-- `Curve` (src/weierstrass/curve.rs:22-31). `PartialEq` is derived: all seven fields are compared. -/
structure Curve where
  f : Fp
  a : FpElt
  b : FpElt
  r : Nat
  gx : FpElt
  gy : FpElt
  h : Nat
deriving DecidableEq, Repr

/-- `ProyCoordinates` (src/weierstrass/point.rs:20-25). -/
structure ProyCoordinates where
  x : FpElt
  y : FpElt
  z : FpElt
deriving DecidableEq, Repr

/-- `Point` (src/weierstrass/point.rs:27-31). Lean's `=` on points is identity of representations;
the code's `==` is `Point.eq`. -/
structure Point where
  e : Curve
  c : ProyCoordinates
deriving DecidableEq, Repr

namespace Curve

/-- `is_on_curve` (src/weierstrass/curve.rs:63-72). -/
def isOnCurve (e : Curve) (pt : Point) : R Bool := do
  let p := pt.c
  let x3 ← p.x *! p.x ^²
  let bz ← e.b *! p.z
  let ax ← e.a *! p.x
  let zz ← p.z *! (ax +! bz)
  let zy ← p.z *! (zz -! p.y ^²)
  let eq ← x3 +! zy
  return eq.isZero

/-- `new_proy_point` (src/weierstrass/curve.rs:33-37). -/
def newProyPoint (e : Curve) (c : ProyCoordinates) : R Point := do
  let pt : Point := ⟨e, c⟩
  doIfEq (← e.isOnCurve pt) (R.ok pt) .notValidPoint

/-- `new_point` (src/weierstrass/curve.rs:44-52). -/
def newPoint (e : Curve) (x y : FpElt) : R Point := do
  let pt : Point := ⟨e, ⟨x, y, ← e.f.one⟩⟩
  doIfEq (← e.isOnCurve pt) (R.ok pt) .notValidPoint

/-- `new_scalar` (src/weierstrass/curve.rs:53-55). -/
def newScalar (e : Curve) (k : Int) : R Scalar := Scalar.new k e.r

/-- `identity` (src/weierstrass/curve.rs:56-62). -/
def identity (e : Curve) : R Point := do
  e.newProyPoint ⟨← e.f.zero, ← e.f.one, ← e.f.zero⟩

/-- `get_order` (src/weierstrass/curve.rs:73-75). -/
def getOrder (e : Curve) : Nat := e.r

/-- `get_cofactor` (src/weierstrass/curve.rs:79-81). -/
def getCofactor (e : Curve) : Int := e.h

/-- `get_field` (src/weierstrass/curve.rs:76-78). -/
def getField (e : Curve) : Fp := e.f

/-- `get_generator` (src/weierstrass/curve.rs:82-88). -/
def getGenerator (e : Curve) : R Point := do
  e.newProyPoint ⟨e.gx, e.gy, ← e.f.one⟩

/-- `decode` (src/weierstrass/curve.rs:93-156). -/
def decode (e : Curve) (buf : List Byte) : R (Except DecodeError Point) := do
  let size := e.f.sizeBytes
  let blen := buf.length
  if !(blen == 1 || blen == size + 1 || blen == 2 * size + 1) then return .error .wrongSize
  else
    let tag ← index buf 0
    let xVal := Big.fromBytesBE (← slice buf 1 (size + 1))
    let p := e.f.p
    if xVal ≥ p then return .error .invalidX
    else if tag = 0 then
      if blen ≠ 1 then return .error .infinityForm
      else return .ok (← e.identity)
    else if tag = 4 then
      if blen ≠ 2 * size + 1 then return .error .invalidBytes
      else
        let x ← e.f.elt xVal
        let yVal := Big.fromBytesBE (← slice buf (size + 1) blen)
        if yVal ≥ p then return .error .invalidY
        else
          let y ← e.f.elt yVal
          return .ok (← e.newPoint x y)
    else if tag = 2 ∨ tag = 3 then
      if blen ≠ size + 1 then return .error .invalidBytes
      else
        let x ← e.f.elt xVal
        let xx ← x *! x
        let xx_a ← xx +! e.a
        let xxx_ax ← xx_a *! x
        let xxx_ax_b ← xxx_ax +! e.b
        let y_sqrt ← xxx_ax_b.sqrt
        let s := y_sqrt.sgn0
        let deserTag := UInt8.ofNat (signBit s + 2)
        let y ← if tag ≠ deserTag then y_sqrt.neg else R.ok y_sqrt
        return .ok (← e.newPoint x y)
    else return .error .invalidTag

end Curve

namespace Point

/-- `is_zero` (src/weierstrass/point.rs:35-37). -/
def isZero (P : Point) : Bool := P.c.x.isZero && !P.c.y.isZero && P.c.z.isZero

/-- `normalize` (src/weierstrass/point.rs:72-77): the point after the call. No curve check. -/
def normalize (P : Point) : R Point := do
  let inv_z ← FpElt.u32Div 1 P.c.z
  let x ← P.c.x *! inv_z
  let y ← P.c.y *! inv_z
  return { P with c := ⟨x, y, P.c.z.setOne⟩ }

/-- `encode` (src/weierstrass/point.rs:40-68). -/
def encode (P : Point) (compress : Bool) : R (List Byte) := do
  let pNormal ← P.normalize
  if pNormal.isZero then return [0]
  else
    let x := pNormal.c.x
    let y := pNormal.c.y
    let xBytes ← x.toBytesBE
    let yBytes ← y.toBytesBE
    if compress then
      let tag := UInt8.ofNat (signBit y.sgn0 + 2)
      return tag :: xBytes
    else return 4 :: (xBytes ++ yBytes)

/-- `core_neg`, unary `-` (src/weierstrass/point.rs:78-84, 221). -/
def neg (P : Point) : R Point := do
  P.e.newProyPoint ⟨P.c.x, ← P.c.y.neg, P.c.z⟩

/-- The coordinates computed by `core_add` (src/weierstrass/point.rs:88-140). -/
def coreAddCoords (P Q : Point) : R ProyCoordinates := do
  let a := P.e.a
  let b3 ← P.e.b +! P.e.b +! P.e.b
  let (x1, x2) := (P.c.x, Q.c.x)
  let (y1, y2) := (P.c.y, Q.c.y)
  let (z1, z2) := (P.c.z, Q.c.z)
  let mut t0 ← x1 *! x2 --   1. t0 = X1 * X2
  let mut t1 ← y1 *! y2 --   2. t1 = Y1 * Y2
  let mut t2 ← z1 *! z2 --   3. t2 = Z1 * Z2
  let mut t3 ← x1 +! y1 --   4. t3 = X1 + Y1
  let mut t4 ← x2 +! y2 --   5. t4 = X2 + Y2
  t3 ← t3 *! t4 --           6. t3 = t3 * t4
  t4 ← t0 +! t1 --           7. t4 = t0 + t1
  t3 ← t3 -! t4 --           8. t3 = t3 - t4
  t4 ← x1 +! z1 --           9. t4 = X1 + Z1
  let mut t5 ← x2 +! z2 --  10. t5 = X2 + Z2
  t4 ← t4 *! t5 --          11. t4 = t4 * t5
  t5 ← t0 +! t2 --          12. t5 = t0 + t2
  t4 ← t4 -! t5 --          13. t4 = t4 - t5
  t5 ← y1 +! z1 --          14. t5 = Y1 + Z1
  let mut x3 ← y2 +! z2 --  15. X3 = Y2 + Z2
  t5 ← t5 *! x3 --          16. t5 = t5 * X3
  x3 ← t1 +! t2 --          17. X3 = t1 + t2
  t5 ← t5 -! x3 --          18. t5 = t5 - X3
  let mut z3 ← a *! t4 --   19. Z3 =  a * t4
  x3 ← b3 *! t2 --          20. X3 = b3 * t2
  z3 ← x3 +! z3 --          21. Z3 = X3 + Z3
  x3 ← t1 -! z3 --          22. X3 = t1 - Z3
  z3 ← t1 +! z3 --          23. Z3 = t1 + Z3
  let mut y3 ← x3 *! z3 --  24. Y3 = X3 * Z3
  t1 ← t0 +! t0 --          25. t1 = t0 + t0
  t1 ← t1 +! t0 --          26. t1 = t1 + t0
  t2 ← a *! t2 --           27. t2 =  a * t2
  t4 ← b3 *! t4 --          28. t4 = b3 * t4
  t1 ← t1 +! t2 --          29. t1 = t1 + t2
  t2 ← t0 -! t2 --          30. t2 = t0 - t2
  t2 ← a *! t2 --           31. t2 =  a * t2
  t4 ← t4 +! t2 --          32. t4 = t4 + t2
  t0 ← t1 *! t4 --          33. t0 = t1 * t4
  y3 ← y3 +! t0 --          34. Y3 = Y3 + t0
  t0 ← t5 *! t4 --          35. t0 = t5 * t4
  x3 ← t3 *! x3 --          36. X3 = t3 * X3
  x3 ← x3 -! t0 --          37. X3 = X3 - t0
  t0 ← t3 *! t1 --          38. t0 = t3 * t1
  z3 ← t5 *! z3 --          39. Z3 = t5 * Z3
  z3 ← z3 +! t0 --          40. Z3 = Z3 + t0
  return ⟨x3, y3, z3⟩

/-- `core_add` (src/weierstrass/point.rs:88-141). -/
def coreAdd (P Q : Point) : R Point := do
  P.e.newProyPoint (← P.coreAddCoords Q)

/-- The coordinates computed by `core_doubling` (src/weierstrass/point.rs:145-188). -/
def coreDoublingCoords (P : Point) : R ProyCoordinates := do
  let a := P.e.a
  let b3 ← P.e.b +! P.e.b +! P.e.b
  let x := P.c.x
  let y := P.c.y
  let z := P.c.z
  let mut t0 ← x *! x --     1. t0 =  X *  X
  let t1 ← y *! y --         2. t1 =  Y *  Y
  let mut t2 ← z *! z --     3. t2 =  Z *  Z
  let mut t3 ← x *! y --     4. t3 =  X *  Y
  t3 ← t3 +! t3 --           5. t3 = t3 + t3
  let mut z3 ← x *! z --     6. Z3 =  X *  Z
  z3 ← z3 +! z3 --           7. Z3 = Z3 + Z3
  let mut x3 ← a *! z3 --    8. X3 =  a * Z3
  let mut y3 ← b3 *! t2 --   9. Y3 = b3 * t2
  y3 ← x3 +! y3 --          10. Y3 = X3 + Y3
  x3 ← t1 -! y3 --          11. X3 = t1 - Y3
  y3 ← t1 +! y3 --          12. Y3 = t1 + Y3
  y3 ← x3 *! y3 --          13. Y3 = X3 * Y3
  x3 ← t3 *! x3 --          14. X3 = t3 * X3
  z3 ← b3 *! z3 --          15. Z3 = b3 * Z3
  t2 ← a *! t2 --           16. t2 =  a * t2
  t3 ← t0 -! t2 --          17. t3 = t0 - t2
  t3 ← a *! t3 --           18. t3 =  a * t3
  t3 ← t3 +! z3 --          19. t3 = t3 + Z3
  z3 ← t0 +! t0 --          20. Z3 = t0 + t0
  t0 ← z3 +! t0 --          21. t0 = Z3 + t0
  t0 ← t0 +! t2 --          22. t0 = t0 + t2
  t0 ← t0 *! t3 --          23. t0 = t0 * t3
  y3 ← y3 +! t0 --          24. Y3 = Y3 + t0
  t2 ← y *! z --            25. t2 =  Y *  Z
  t2 ← t2 +! t2 --          26. t2 = t2 + t2
  t0 ← t2 *! t3 --          27. t2 = t2 * t3
  x3 ← x3 -! t0 --          28. X3 = X3 - t0
  z3 ← t2 *! t1 --          29. Z3 = t2 * t1
  z3 ← z3 +! z3 --          30. Z3 = Z3 + Z3
  z3 ← z3 +! z3 --          31. Z3 = Z3 + Z3
  return ⟨x3, y3, z3⟩

/-- `core_doubling` (src/weierstrass/point.rs:145-189). -/
def coreDoubling (P : Point) : R Point := do
  P.e.newProyPoint (← P.coreDoublingCoords)

/-- binary `+` (src/weierstrass/point.rs:217-219). -/
def add (P Q : Point) : R Point := doIfEq (P.e == Q.e) (P.coreAdd Q) .differentCurves

/-- binary `-` (src/weierstrass/point.rs:220). -/
def sub (P Q : Point) : R Point := do P.add (← Q.neg)

/-- The body of the loop in `core_mul` (src/weierstrass/point.rs:195-200) over the remaining bits. -/
def mulLoop (P : Point) : List Bool → Point → R Point
  | [], q => R.ok q
  | ki :: bits, q => do
    let q ← q.coreDoubling
    let q ← if ki then q.add P else R.ok q
    mulLoop P bits q

/-- `core_mul` (src/weierstrass/point.rs:193-202). -/
def coreMul (prof : Profile) (P : Point) (k : Scalar) : R Point := do
  let q ← P.e.identity
  let bits ← k.iterLR prof
  P.mulLoop bits q

/-- `Point * Scalar` (src/weierstrass/point.rs:222-225); `Scalar * Point` calls it
(src/weierstrass/scalar.rs:90-110). -/
def mul (prof : Profile) (P : Point) (k : Scalar) : R Point :=
  doIfEq ((P.e.r : Int) == k.r) (P.coreMul prof k) .scalarMismatch

/-- `==` (src/weierstrass/point.rs:207-215). The four products are computed before the curves are compared. -/
def eq (P Q : Point) : R Bool := do
  let x1z2 ← P.c.x *! Q.c.z
  let z1x2 ← P.c.z *! Q.c.x
  let y1z2 ← P.c.y *! Q.c.z
  let z1y2 ← P.c.z *! Q.c.y
  return P.e == Q.e && x1z2 == z1x2 && y1z2 == z1y2

end Point

end Redox.Weierstrass
