import Verif.Model.Weierstrass
import Verif.Model.Montgomery
import Verif.Model.Edwards

/-!
# Maps to curves

src/weierstrass/{sswu,svdw,sswuab0}.rs, src/montgomery/elligator2.rs, src/edwards/elligator2.rs, and the traits
`Isogeny`, `RationalMap` of src/ellipticcurve.rs. A trait object is modelled by the record of its methods.
-/

namespace Redox

/-- `trait Isogeny` with `E0 = E1 = weierstrass::Curve` (src/ellipticcurve.rs:61-67). -/
structure Isogeny where
  domain : R Weierstrass.Curve
  codomain : R Weierstrass.Curve
  push : Weierstrass.Point → R Weierstrass.Point

/-- `trait RationalMap` with `E0 = edwards::Curve`, `E1 = montgomery::Curve` (src/ellipticcurve.rs:51-58). -/
structure RationalMap where
  domain : R Edwards.Curve
  codomain : R Montgomery.Curve
  push : Edwards.Point → R Montgomery.Point
  pull : Montgomery.Point → R Edwards.Point

namespace Weierstrass

/-- `struct SSWU` (src/weierstrass/sswu.rs:9-15). -/
structure SSWU where
  e : Curve
  c1 : FpElt
  c2 : FpElt
  z : FpElt
deriving DecidableEq, Repr

namespace SSWU

/-- `SSWU::verify` (src/weierstrass/sswu.rs:27-36). -/
def verify (e : Curve) (z : FpElt) : R Bool := do
  let precond1 := !e.a.isZero
  let precond2 := !e.b.isZero
  let cond1 := !(← z.isSquare)
  let cond2 := z != (← e.getField.fromPrim (-1))
  let x ← e.b *! R.finv (z *! e.a)
  let gx ← x *! (x ^² +! e.a) +! e.b
  let cond4 ← gx.isSquare
  return precond1 && precond2 && cond1 && cond2 && cond4

/-- `SSWU::new` (src/weierstrass/sswu.rs:18-26). -/
def new (e : Curve) (z : FpElt) : R SSWU := do
  if !(← verify e z) then R.panic .wrongParams
  else
    let c1 ← (-! e.b) *! R.finv e.a
    let c2 ← -! (R.finv z)
    return ⟨e, c1, c2, z⟩

/-- `SSWU::map` (src/weierstrass/sswu.rs:41-70). -/
def map (m : SSWU) (u : FpElt) : R Point := do
  let f := m.e.getField
  let cmov := FpElt.cmov
  let mut t1 ← u ^² --                      0.   t1 = u^2
  t1 ← m.z *! t1 --                         1.   t1 = Z * u^2
  let mut t2 ← t1 ^² --                     2.   t2 = t1^2
  let mut x1 ← t1 +! t2 --                  3.   x1 = t1 + t2
  x1 ← R.finv x1 --                         4.   x1 = inv0(x1)
  let e1 := x1.isZero --                    5.   e1 = x1 == 0
  x1 ← x1 +! f.one --                       6.   x1 = x1 + 1
  x1 := cmov x1 m.c2 e1 --                  7.   x1 = CMOV(x1, c2, e1)
  x1 ← x1 *! m.c1 --                        8.   x1 = x1 * c1
  let mut gx1 ← x1 ^² --                    9.  gx1 = x1^2
  gx1 ← gx1 +! m.e.a --                     10. gx1 = gx1 + A
  gx1 ← gx1 *! x1 --                        11. gx1 = gx1 * x1
  gx1 ← gx1 +! m.e.b --                     12. gx1 = gx1 + B
  let x2 ← t1 *! x1 --                      13.  x2 = t1 * x1
  t2 ← t1 *! t2 --                          14.  t2 = t1 * t2
  let gx2 ← gx1 *! t2 --                    15. gx2 = gx1 * t2
  let e2 ← gx1.isSquare --                  16.  e2 = is_square(gx1)
  let x := cmov x2 x1 e2 --                 17.   x = CMOV(x2, x1, e2)
  let y2 := cmov gx2 gx1 e2 --              18.  y2 = CMOV(gx2, gx1, e2)
  let mut y ← y2.sqrt --                    19.   y = sqrt(y2)
  let e3 := u.sgn0 == y.sgn0 --             20.  e3 = sgn0(u) == sgn0(y)
  y := cmov (← y.neg) y e3 --               21.   y = CMOV(-y, y, e3)
  m.e.newPoint x y

end SSWU

/-- `struct SVDW` (src/weierstrass/svdw.rs:9-16). -/
structure SVDW where
  e : Curve
  c1 : FpElt
  c2 : FpElt
  c3 : FpElt
  c4 : FpElt
  z : FpElt
deriving DecidableEq, Repr

namespace SVDW

/-- `SVDW::gx` (src/weierstrass/svdw.rs:44-46). -/
def gx (e : Curve) (x : FpElt) : R FpElt := x *! (x ^² +! e.a) +! e.b

/-- `SVDW::verify` (src/weierstrass/svdw.rs:47-60). -/
def verify (e : Curve) (z : FpElt) : R Bool := do
  let f := e.getField
  let f2 ← f.fromPrim 2
  let f3 ← f.fromPrim 3
  let f4 ← f.fromPrim 4
  let gz ← gx e z
  let gz2 ← gx e (← (-! z) *! R.finv f2)
  let t0 ← (-! (f3 *! z ^² +! f4 *! e.a)) *! R.finv (f4 *! gz)
  let cond1 := !gz.isZero
  let cond2 := !t0.isZero
  let cond3 ← t0.isSquare
  let cond4a ← gz.isSquare
  let cond4b ← gz2.isSquare
  return cond1 && cond2 && cond3 && (cond4a || cond4b)

/-- `SVDW::new` (src/weierstrass/svdw.rs:19-43). -/
def new (e : Curve) (z : FpElt) : R SVDW := do
  if !(← verify e z) then R.panic .wrongParams
  else
    let f := e.getField
    let f2 ← f.fromPrim 2
    let f3 ← f.fromPrim 3
    let f4 ← f.fromPrim 4
    let gz ← -! (gx e z)
    let c1 ← -! gz
    let c2 ← (-! z) *! R.finv f2
    let t0 ← (f3 *! z ^²) +! (f4 *! e.a)
    let mut c3 ← (← gz *! t0).sqrt
    if c3.sgn0 = -1 then
      c3 ← c3.neg
    let c4 ← (f4 *! gz) *! R.finv t0
    return ⟨e, c1, c2, c3, c4, z⟩

/-- `SVDW::map` (src/weierstrass/svdw.rs:65-107). -/
def map (m : SVDW) (u : FpElt) : R Point := do
  let f := m.e.getField
  let cmov := FpElt.cmov
  let mut t1 ← u ^² --                      1.   t1 = u^2
  t1 ← t1 *! m.c1 --                        2.   t1 = t1 * c1
  let t2 ← f.one +! t1 --                   3.   t2 = 1 + t1
  t1 ← f.one -! t1 --                       4.   t1 = 1 - t1
  let mut t3 ← t1 *! t2 --                  5.   t3 = t1 * t2
  t3 ← R.finv t3 --                         6.   t3 = inv0(t3)
  let mut t4 ← u *! t1 --                   7.   t4 = u * t1
  t4 ← t4 *! t3 --                          8.   t4 = t4 * t3
  t4 ← t4 *! m.c3 --                        9.   t4 = t4 * c3
  let x1 ← m.c2 -! t4 --                    10.  x1 = c2 - t4
  let mut gx1 ← x1 ^² --                    11. gx1 = x1^2
  gx1 ← gx1 +! m.e.a --                     12. gx1 = gx1 + A
  gx1 ← gx1 *! x1 --                        13. gx1 = gx1 * x1
  gx1 ← gx1 +! m.e.b --                     14. gx1 = gx1 + B
  let e1 ← gx1.isSquare --                  15.  e1 = is_square(gx1)
  let x2 ← m.c2 +! t4 --                    16.  x2 = c2 + t4
  let mut gx2 ← x2 ^² --                    17. gx2 = x2^2
  gx2 ← gx2 +! m.e.a --                     18. gx2 = gx2 + A
  gx2 ← gx2 *! x2 --                        19. gx2 = gx2 * x2
  gx2 ← gx2 +! m.e.b --                     20. gx2 = gx2 + B
  let e2 := (← gx2.isSquare) && !e1 --      21.  e2 = is_square(gx2) AND NOT e1
  let mut x3 ← t2 ^² --                     22.  x3 = t2^2
  x3 ← x3 *! t3 --                          23.  x3 = x3 * t3
  x3 ← x3 ^² --                             24.  x3 = x3^2
  x3 ← x3 *! m.c4 --                        25.  x3 = x3 * c4
  x3 ← x3 +! m.z --                         26.  x3 = x3 + Z
  let mut x := cmov x3 x1 e1 --             27.   x = CMOV(x3, x1, e1)
  x := cmov x x2 e2 --                      28.   x = CMOV(x, x2, e2)
  let mut gx ← x ^² --                      29.  gx = x^2
  gx ← gx +! m.e.a --                       30.  gx = gx + A
  gx ← gx *! x --                           31.  gx = gx * x
  gx ← gx +! m.e.b --                       32.  gx = gx + B
  let mut y ← gx.sqrt --                    33.   y = sqrt(gx)
  let e3 := u.sgn0 == y.sgn0 --             34.  e3 = sgn0(u) == sgn0(y)
  y := cmov (← y.neg) y e3 --               35.   y = CMOV(-y, y, e3)
  m.e.newPoint x y

end SVDW

/-- `struct SSWUAB0` (src/weierstrass/sswuab0.rs:8-12). -/
structure SSWUAB0 where
  iso : Isogeny
  sswu : SSWU

namespace SSWUAB0

/-- `SSWUAB0::verify` (src/weierstrass/sswuab0.rs:23-28). -/
def verify (e : Curve) (iso : Isogeny) : R Bool := do
  let cond0 := e == (← iso.codomain)
  let cond1 := e.a.isZero
  let cond2 := e.b.isZero
  return cond0 && (cond1 ^^ cond2)

/-- `SSWUAB0::new` (src/weierstrass/sswuab0.rs:15-22). -/
def new (e : Curve) (z : FpElt) (iso : Isogeny) : R SSWUAB0 := do
  if !(← verify e iso) then R.panic .wrongParams
  else
    let sswu ← SSWU.new (← iso.domain) z
    return ⟨iso, sswu⟩

/-- `SSWUAB0::map` (src/weierstrass/sswuab0.rs:33-38). -/
def map (m : SSWUAB0) (u : FpElt) : R Point := do m.iso.push (← m.sswu.map u)

end SSWUAB0

end Weierstrass

namespace Montgomery

/-- `struct Ell2` (src/montgomery/elligator2.rs:9-14). -/
structure Ell2 where
  e : Curve
  z : FpElt
  ca : FpElt
  cb : FpElt
deriving DecidableEq, Repr

namespace Ell2

/-- `Ell2::verify` (src/montgomery/elligator2.rs:27-31). -/
def verify (e : Curve) : Bool := !e.a.isZero && !e.b.isZero

/-- `Ell2::new` (src/montgomery/elligator2.rs:17-26). -/
def new (e : Curve) (z : FpElt) : R Ell2 := do
  if !verify e then R.panic .wrongParams
  else
    let inb ← R.finv e.b
    let ca ← e.a /! inb
    let cb ← inb ^²
    return ⟨e, z, ca, cb⟩

/-- `Ell2::map` (src/montgomery/elligator2.rs:36-64). -/
def map (m : Ell2) (u : FpElt) : R Point := do
  let f := m.e.getField
  let cmov := FpElt.cmov
  let mut t1 ← u ^² --                      1.   t1 = u^2
  t1 ← m.z *! t1 --                         2.   t1 = Z * t1
  let e1 := t1 == (← f.fromPrim (-1)) --    3.   e1 = t1 == -1
  t1 := cmov t1 (← f.zero) e1 --            4.   t1 = CMOV(t1, 0, e1)
  let mut x1 ← t1 +! f.one --               5.   x1 = t1 + 1
  x1 ← R.finv x1 --                         6.   x1 = inv0(x1)
  x1 ← (-! m.ca) *! x1 --                   7.   x1 = -A * x1
  let mut gx1 ← x1 +! m.ca --               8.  gx1 = x1 + A
  gx1 ← gx1 *! x1 --                        9.  gx1 = gx1 * x1
  gx1 ← gx1 +! m.cb --                      10. gx1 = gx1 + B
  gx1 ← gx1 *! x1 --                        11. gx1 = gx1 * x1
  let x2 ← (-! x1) -! m.ca --               12.  x2 = -x1 - A
  let gx2 ← t1 *! gx1 --                    13. gx2 = t1 * gx1
  let e2 ← gx1.isSquare --                  14.  e2 = is_square(gx1)
  let mut x := cmov x2 x1 e2 --             15.   x = CMOV(x2, x1, e2)
  let y2 := cmov gx2 gx1 e2 --              16.  y2 = CMOV(gx2, gx1, e2)
  let mut y ← y2.sqrt --                    17.   y = sqrt(y2)
  let e3 := y.sgn0 == 1 --                  18.  e3 = sgn0(y) == 1
  y := cmov (← y.neg) y (e2 ^^ e3) --       19.   y = CMOV(-y, y, e2 xor e3)
  x ← x *! m.e.b
  y ← y *! m.e.b
  m.e.newPoint x y

end Ell2

end Montgomery

namespace Edwards

/-- `struct Ell2` (src/edwards/elligator2.rs:8-11). -/
structure Ell2 where
  ratmap : RationalMap
  mapToCurve : Montgomery.Ell2

namespace Ell2

/-- `Ell2::new` (src/edwards/elligator2.rs:14-36). Without a rational map: `todo!()`. -/
def new (e : Curve) (z : FpElt) (ratmap : Option RationalMap) : R Ell2 :=
  match ratmap with
  | none => R.panic .unimplemented
  | some r => do
    if (← r.domain) ≠ e then R.panic .domainMismatch
    else
      let mt ← r.codomain
      return ⟨r, ← Montgomery.Ell2.new mt z⟩

/-- `Ell2::map` (src/edwards/elligator2.rs:41-46). -/
def map (m : Ell2) (u : FpElt) : R Point := do m.ratmap.pull (← m.mapToCurve.map u)

end Ell2

end Edwards

end Redox
