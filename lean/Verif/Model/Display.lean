import Verif.Model.QuadField
import Verif.Model.Scalar
import Verif.Model.Instances

/-!
# `Display` implementations of fields, curves, points and curve identifiers

Text is its list of UTF-8 bytes. Those of field elements and scalars are in `Model/PrimeField.lean`,
`Model/QuadField.lean` and `Model/Scalar.lean`. Byte 10 is the newline of the format strings.
-/

namespace Redox

/-- `Display for Fp` (src/primefield/mod.rs:355-359). -/
def Fp.display (f : Fp) : List Byte := ascii! "GF(" ++ Big.showNat f.p ++ ascii! ")"

/-- `Display for Fp2` (src/quadraticfield/mod.rs:366-370). -/
def Fp2.display (f : Fp2) : List Byte := f.base.display ++ ascii! "^2"

/-- `Display for Curve` (src/weierstrass/curve.rs:159-167). -/
def Weierstrass.Curve.display (e : Weierstrass.Curve) : R (List Byte) := do
  return ascii! "Weierstrass Curve y^2=x^3+ax+b" ++ [10] ++ ascii! "a: " ++ (← e.a.display) ++ [10] ++
    ascii! "b: " ++ (← e.b.display)

/-- `Display for Point` (src/weierstrass/point.rs:227-231): the projective coordinates as stored. -/
def Weierstrass.Point.display (P : Weierstrass.Point) : R (List Byte) := do
  return [10] ++ ascii! "x: " ++ (← P.c.x.display) ++ [10] ++ ascii! "y: " ++ (← P.c.y.display) ++ [10] ++
    ascii! "z: " ++ (← P.c.z.display)

/-- `Display for Curve` (src/montgomery/curve.rs:164-172). -/
def Montgomery.Curve.display (e : Montgomery.Curve) : R (List Byte) := do
  return ascii! "Montgomery Curve by^2=x^3+ax^2+x" ++ [10] ++ ascii! "a: " ++ (← e.a.display) ++ [10] ++
    ascii! "b: " ++ (← e.b.display)

/-- `Display for Point` (src/montgomery/point.rs:142-146). -/
def Montgomery.Point.display (P : Montgomery.Point) : R (List Byte) := do
  return [10] ++ ascii! "x: " ++ (← P.c.x.display) ++ [10] ++ ascii! "y: " ++ (← P.c.y.display) ++ [10] ++
    ascii! "z: " ++ (← P.c.z.display)

/-- `Display for Curve` (src/edwards/curve.rs:149-157). -/
def Edwards.Curve.display (e : Edwards.Curve) : R (List Byte) := do
  return ascii! "Twisted Edwards Curve ax^2+y^2=1+dx^2y^2" ++ [10] ++ ascii! "a: " ++ (← e.a.display) ++ [10] ++
    ascii! "d: " ++ (← e.d.display)

/-- `Display for Point` (src/edwards/point.rs:133-141). -/
def Edwards.Point.display (P : Edwards.Point) : R (List Byte) := do
  return [10] ++ ascii! "x: " ++ (← P.c.x.display) ++ [10] ++ ascii! "y: " ++ (← P.c.y.display) ++ [10] ++
    ascii! "t: " ++ (← P.c.t.display) ++ [10] ++ ascii! "z: " ++ (← P.c.z.display)

/-- `Display for WeCurveID` (src/instances/weier.rs:15-19): the name. -/
def Weierstrass.Params.display (q : Weierstrass.Params) : List Byte := q.name

/-- `Display for MtCurveID` (src/instances/mont.rs:15-19): the name. -/
def Montgomery.Params.display (q : Montgomery.Params) : List Byte := q.name

/-- `Display for EdCurveID` (src/instances/edw.rs:15-19): the name. -/
def Edwards.Params.display (q : Edwards.Params) : List Byte := q.name

end Redox
