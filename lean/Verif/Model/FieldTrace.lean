import Verif.Model.Maps
import Verif.Model.RationalMaps

/-!
# Functions with a record of the field operations they call

The functions below are those of `Model/Weierstrass.lean`, `Model/Montgomery.lean`, `Model/Edwards.lean`, `Model/Maps.lean` and
`Model/RationalMaps.lean` with one addition: they also return which operations on elements of the prime field were called, in order, with the
exponents of powers but without the operands. Comparisons (`==`, `is_zero`), `sgn0` and `cmov` are not recorded. That forgetting the record gives
back the original functions is part of the theorems in `Props/FieldTraceProps.lean`.
-/

namespace Redox

/-- A call of an operation of the prime field (src/primefield/mod.rs:56-66, 100, 170-244). -/
inductive FpOp where
  | elt
  | add
  | sub
  | mul
  | neg
  | pow (exponent : Nat)
deriving DecidableEq, Repr

/-- The outcome of a computation and the field operations it called until then. Auxiliary, no line of /repo. -/
structure T (α : Type u) where
  out : R α
  ops : List FpOp

namespace T

/-- A value, no operation. Auxiliary, no line of /repo. -/
def ok {α : Type u} (a : α) : T α := ⟨R.ok a, []⟩

/-- One call, recorded as `o`. Auxiliary, no line of /repo. -/
def call {α : Type u} (o : FpOp) (x : R α) : T α := ⟨x, [o]⟩

/-- Sequencing, as `R.bind`. Auxiliary, no line of /repo. -/
def bind {α β : Type u} (x : T α) (f : α → T β) : T β :=
  match x.out with
  | .ok a =>
    let y := f a
    ⟨y.out, x.ops ++ y.ops⟩
  | .panic e => ⟨.panic e, x.ops⟩

instance : Monad T where
  pure := ok
  bind := bind

/-- A plain value used where an outcome is expected. -/
instance {α : Type u} : CoeHead α (T α) := ⟨ok⟩

/-- Macro `do_if_eq!` (src/macros/mod.rs:7-15). -/
def doIfEq {α : Type u} (cond : Bool) (body : T α) (why : Panic) : T α := if cond then body else ⟨R.panic why, []⟩

end T

namespace Fp

/-- `Field::elt` (src/primefield/mod.rs:56-60) with a record. -/
def eltF (f : Fp) (n : Int) : T FpElt := T.call .elt (f.elt n)

/-- `Field::zero` (src/primefield/mod.rs:61-63) with a record. -/
def zeroF (f : Fp) : T FpElt := f.eltF 0

/-- `Field::one` (src/primefield/mod.rs:64-66) with a record. -/
def oneF (f : Fp) : T FpElt := f.eltF 1

/-- `FromFactory<u8..i64>` (src/primefield/mod.rs:87-100) with a record. -/
def fromPrimF (f : Fp) (n : Int) : T FpElt := f.eltF n

end Fp

namespace FpElt

/-- `+` (src/primefield/mod.rs:170-181, 197-199) with a record. -/
def addF (a b : FpElt) : T FpElt := T.call .add (a.add b)

/-- binary `-` (src/primefield/mod.rs:200-202) with a record. -/
def subF (a b : FpElt) : T FpElt := T.call .sub (a.sub b)

/-- `*` (src/primefield/mod.rs:203-205) with a record. -/
def mulF (a b : FpElt) : T FpElt := T.call .mul (a.mul b)

/-- unary `-` (src/primefield/mod.rs:212) with a record. -/
def negF (a : FpElt) : T FpElt := T.call .neg a.neg

/-- `^ &BigInt` (src/primefield/mod.rs:228-244) with a record: the reduced exponent is the one that `modpow` gets. -/
def powIntF (a : FpElt) (e : Int) : T FpElt := T.call (.pow (e % ((a.f.p : Int) - 1)).toNat) (a.powInt e)

/-- `^ 2u32` (src/primefield/mod.rs:213-215) with a record: a product. -/
def sqrF (a : FpElt) : T FpElt := T.call .mul (a.powU32 2)

/-- `1u32 / &a` (src/primefield/mod.rs:191-194, 220-226) with a record: a power. -/
def invF (a : FpElt) : T FpElt := a.powIntF ((a.f.p : Int) - 2)

/-- `/` (src/primefield/mod.rs:207-211) with a record: a power and a product. -/
def divF (a b : FpElt) : T FpElt := do
  let i ← b.invF
  a.mulF i

end FpElt

/-- `a + b` (src/primefield/mod.rs:170-181) with a record. -/
def T.fadd (a b : T FpElt) : T FpElt := do (← a).addF (← b)
/-- `a - b` (src/primefield/mod.rs:200-202) with a record. -/
def T.fsub (a b : T FpElt) : T FpElt := do (← a).subF (← b)
/-- `a * b` (src/primefield/mod.rs:203-205) with a record. -/
def T.fmul (a b : T FpElt) : T FpElt := do (← a).mulF (← b)
/-- `a / b` (src/primefield/mod.rs:207-211) with a record. -/
def T.fdiv (a b : T FpElt) : T FpElt := do (← a).divF (← b)
/-- `-a` (src/primefield/mod.rs:212) with a record. -/
def T.fneg (a : T FpElt) : T FpElt := do (← a).negF
/-- `a ^ 2u32` (src/primefield/mod.rs:213-215) with a record. -/
def T.fsqr (a : T FpElt) : T FpElt := do (← a).sqrF
/-- `1u32 / &a` (src/primefield/mod.rs:220-226) with a record. -/
def T.finv (a : T FpElt) : T FpElt := do (← a).invF

@[inherit_doc] scoped infixl:65 " +ₜ " => T.fadd
@[inherit_doc] scoped infixl:65 " -ₜ " => T.fsub
@[inherit_doc] scoped infixl:70 " *ₜ " => T.fmul
@[inherit_doc] scoped infixl:70 " /ₜ " => T.fdiv
@[inherit_doc] scoped prefix:75 "-ₜ" => T.fneg
@[inherit_doc] scoped postfix:max " ^²ₜ" => T.fsqr

/-- `Fp::calc_sqrt_precmp` (src/primefield/mod.rs:263-287) with a record. It runs at every square root: it is an argument of `get_or_insert`
(src/primefield/mod.rs:260), evaluated also if the cache is filled. -/
def Fp.calcSqrtPrecmpF (f : Fp) : T SqrtPrecmp := do
  let p := f.p
  let res := p % 16
  if 3 = res % 4 then
    return .p3mod4 (((p : Int) + 1) / 4)
  else if 5 = res % 8 then
    let k : Int := ((p : Int) - 5) / 8
    let two ← f.oneF +ₜ f.oneF
    let t ← two.powIntF k
    let mut t0 ← t.sqrF
    t0 ← t0 +ₜ t0
    t0 ← t0 +ₜ f.oneF
    t0 ← t0 *ₜ t
    return .p5mod8 (k + 1) t0
  else if 9 = res % 16 then
    return .p9mod16
  else
    return .p1mod16

namespace FpElt

/-- `Sqrt::is_square` (src/primefield/mod.rs:292-296) with a record. -/
def isSquareF (a : FpElt) : T Bool := do
  let res ← a.powIntF (((a.f.p : Int) - 1) / 2)
  return res.isOne || res.isZero

/-- The `match pre` of `Sqrt::sqrt` (src/primefield/mod.rs:299-313) with a record. -/
def sqrtWithF (a : FpElt) (pre : SqrtPrecmp) : T FpElt :=
  match pre with
  | .p3mod4 exp => a.powIntF exp
  | .p5mod8 exp sqrtMinusOne => do
    let t0 ← a.powIntF exp
    let t1 ← t0.sqrF
    let e := a == t1
    let t1 ← t0 *ₜ sqrtMinusOne
    return cmov t1 t0 e
  | .p9mod16 => ⟨R.panic .unimplemented, []⟩
  | .p1mod16 => ⟨R.panic .unimplemented, []⟩

/-- `Sqrt::sqrt` (src/primefield/mod.rs:297-314) with a record. -/
def sqrtF (a : FpElt) : T FpElt := do
  let pre ← a.f.calcSqrtPrecmpF
  a.sqrtWithF pre

end FpElt

namespace Weierstrass.Curve

/-- `is_on_curve` (src/weierstrass/curve.rs:63-72), with a record. -/
def isOnCurveF (e : Curve) (pt : Point) : T Bool := do
  let p := pt.c
  let x3 ← p.x *ₜ p.x ^²ₜ
  let bz ← e.b *ₜ p.z
  let ax ← e.a *ₜ p.x
  let zz ← p.z *ₜ (ax +ₜ bz)
  let zy ← p.z *ₜ (zz -ₜ p.y ^²ₜ)
  let eq ← x3 +ₜ zy
  return eq.isZero

/-- `new_proy_point` (src/weierstrass/curve.rs:33-37), with a record. -/
def newProyPointF (e : Curve) (c : ProyCoordinates) : T Point := do
  let pt : Point := ⟨e, c⟩
  T.doIfEq (← e.isOnCurveF pt) (T.ok pt) .notValidPoint

/-- `new_point` (src/weierstrass/curve.rs:44-52), with a record. -/
def newPointF (e : Curve) (x y : FpElt) : T Point := do
  let pt : Point := ⟨e, ⟨x, y, ← e.f.oneF⟩⟩
  T.doIfEq (← e.isOnCurveF pt) (T.ok pt) .notValidPoint

/-- `identity` (src/weierstrass/curve.rs:56-62), with a record. -/
def identityF (e : Curve) : T Point := do
  e.newProyPointF ⟨← e.f.zeroF, ← e.f.oneF, ← e.f.zeroF⟩

end Weierstrass.Curve

namespace Weierstrass.Point

/-- `normalize` (src/weierstrass/point.rs:72-77): the point after the call. No curve check. With a record. -/
def normalizeF (P : Point) : T Point := do
  let inv_z ← P.c.z.invF
  let x ← P.c.x *ₜ inv_z
  let y ← P.c.y *ₜ inv_z
  return { P with c := ⟨x, y, P.c.z.setOne⟩ }

/-- `core_neg`, unary `-` (src/weierstrass/point.rs:78-84, 221), with a record. -/
def negF (P : Point) : T Point := do
  P.e.newProyPointF ⟨P.c.x, ← P.c.y.negF, P.c.z⟩

/-- The coordinates computed by `core_add` (src/weierstrass/point.rs:88-140), with a record. -/
def coreAddCoordsF (P Q : Point) : T ProyCoordinates := do
  let a := P.e.a
  let b3 ← P.e.b +ₜ P.e.b +ₜ P.e.b
  let (x1, x2) := (P.c.x, Q.c.x)
  let (y1, y2) := (P.c.y, Q.c.y)
  let (z1, z2) := (P.c.z, Q.c.z)
  let mut t0 ← x1 *ₜ x2 --   1. t0 = X1 * X2
  let mut t1 ← y1 *ₜ y2 --   2. t1 = Y1 * Y2
  let mut t2 ← z1 *ₜ z2 --   3. t2 = Z1 * Z2
  let mut t3 ← x1 +ₜ y1 --   4. t3 = X1 + Y1
  let mut t4 ← x2 +ₜ y2 --   5. t4 = X2 + Y2
  t3 ← t3 *ₜ t4 --           6. t3 = t3 * t4
  t4 ← t0 +ₜ t1 --           7. t4 = t0 + t1
  t3 ← t3 -ₜ t4 --           8. t3 = t3 - t4
  t4 ← x1 +ₜ z1 --           9. t4 = X1 + Z1
  let mut t5 ← x2 +ₜ z2 --  10. t5 = X2 + Z2
  t4 ← t4 *ₜ t5 --          11. t4 = t4 * t5
  t5 ← t0 +ₜ t2 --          12. t5 = t0 + t2
  t4 ← t4 -ₜ t5 --          13. t4 = t4 - t5
  t5 ← y1 +ₜ z1 --          14. t5 = Y1 + Z1
  let mut x3 ← y2 +ₜ z2 --  15. X3 = Y2 + Z2
  t5 ← t5 *ₜ x3 --          16. t5 = t5 * X3
  x3 ← t1 +ₜ t2 --          17. X3 = t1 + t2
  t5 ← t5 -ₜ x3 --          18. t5 = t5 - X3
  let mut z3 ← a *ₜ t4 --   19. Z3 =  a * t4
  x3 ← b3 *ₜ t2 --          20. X3 = b3 * t2
  z3 ← x3 +ₜ z3 --          21. Z3 = X3 + Z3
  x3 ← t1 -ₜ z3 --          22. X3 = t1 - Z3
  z3 ← t1 +ₜ z3 --          23. Z3 = t1 + Z3
  let mut y3 ← x3 *ₜ z3 --  24. Y3 = X3 * Z3
  t1 ← t0 +ₜ t0 --          25. t1 = t0 + t0
  t1 ← t1 +ₜ t0 --          26. t1 = t1 + t0
  t2 ← a *ₜ t2 --           27. t2 =  a * t2
  t4 ← b3 *ₜ t4 --          28. t4 = b3 * t4
  t1 ← t1 +ₜ t2 --          29. t1 = t1 + t2
  t2 ← t0 -ₜ t2 --          30. t2 = t0 - t2
  t2 ← a *ₜ t2 --           31. t2 =  a * t2
  t4 ← t4 +ₜ t2 --          32. t4 = t4 + t2
  t0 ← t1 *ₜ t4 --          33. t0 = t1 * t4
  y3 ← y3 +ₜ t0 --          34. Y3 = Y3 + t0
  t0 ← t5 *ₜ t4 --          35. t0 = t5 * t4
  x3 ← t3 *ₜ x3 --          36. X3 = t3 * X3
  x3 ← x3 -ₜ t0 --          37. X3 = X3 - t0
  t0 ← t3 *ₜ t1 --          38. t0 = t3 * t1
  z3 ← t5 *ₜ z3 --          39. Z3 = t5 * Z3
  z3 ← z3 +ₜ t0 --          40. Z3 = Z3 + t0
  return ⟨x3, y3, z3⟩

/-- `core_add` (src/weierstrass/point.rs:88-141), with a record. -/
def coreAddF (P Q : Point) : T Point := do
  P.e.newProyPointF (← P.coreAddCoordsF Q)

/-- The coordinates computed by `core_doubling` (src/weierstrass/point.rs:145-188), with a record. -/
def coreDoublingCoordsF (P : Point) : T ProyCoordinates := do
  let a := P.e.a
  let b3 ← P.e.b +ₜ P.e.b +ₜ P.e.b
  let x := P.c.x
  let y := P.c.y
  let z := P.c.z
  let mut t0 ← x *ₜ x --     1. t0 =  X *  X
  let t1 ← y *ₜ y --         2. t1 =  Y *  Y
  let mut t2 ← z *ₜ z --     3. t2 =  Z *  Z
  let mut t3 ← x *ₜ y --     4. t3 =  X *  Y
  t3 ← t3 +ₜ t3 --           5. t3 = t3 + t3
  let mut z3 ← x *ₜ z --     6. Z3 =  X *  Z
  z3 ← z3 +ₜ z3 --           7. Z3 = Z3 + Z3
  let mut x3 ← a *ₜ z3 --    8. X3 =  a * Z3
  let mut y3 ← b3 *ₜ t2 --   9. Y3 = b3 * t2
  y3 ← x3 +ₜ y3 --          10. Y3 = X3 + Y3
  x3 ← t1 -ₜ y3 --          11. X3 = t1 - Y3
  y3 ← t1 +ₜ y3 --          12. Y3 = t1 + Y3
  y3 ← x3 *ₜ y3 --          13. Y3 = X3 * Y3
  x3 ← t3 *ₜ x3 --          14. X3 = t3 * X3
  z3 ← b3 *ₜ z3 --          15. Z3 = b3 * Z3
  t2 ← a *ₜ t2 --           16. t2 =  a * t2
  t3 ← t0 -ₜ t2 --          17. t3 = t0 - t2
  t3 ← a *ₜ t3 --           18. t3 =  a * t3
  t3 ← t3 +ₜ z3 --          19. t3 = t3 + Z3
  z3 ← t0 +ₜ t0 --          20. Z3 = t0 + t0
  t0 ← z3 +ₜ t0 --          21. t0 = Z3 + t0
  t0 ← t0 +ₜ t2 --          22. t0 = t0 + t2
  t0 ← t0 *ₜ t3 --          23. t0 = t0 * t3
  y3 ← y3 +ₜ t0 --          24. Y3 = Y3 + t0
  t2 ← y *ₜ z --            25. t2 =  Y *  Z
  t2 ← t2 +ₜ t2 --          26. t2 = t2 + t2
  t0 ← t2 *ₜ t3 --          27. t2 = t2 * t3
  x3 ← x3 -ₜ t0 --          28. X3 = X3 - t0
  z3 ← t2 *ₜ t1 --          29. Z3 = t2 * t1
  z3 ← z3 +ₜ z3 --          30. Z3 = Z3 + Z3
  z3 ← z3 +ₜ z3 --          31. Z3 = Z3 + Z3
  return ⟨x3, y3, z3⟩

/-- `core_doubling` (src/weierstrass/point.rs:145-189), with a record. -/
def coreDoublingF (P : Point) : T Point := do
  P.e.newProyPointF (← P.coreDoublingCoordsF)

/-- binary `+` (src/weierstrass/point.rs:217-219), with a record. -/
def addF (P Q : Point) : T Point := T.doIfEq (P.e == Q.e) (P.coreAddF Q) .differentCurves

/-- binary `-` (src/weierstrass/point.rs:220), with a record. -/
def subF (P Q : Point) : T Point := do P.addF (← Q.negF)

/-- The body of the loop in `core_mul` (src/weierstrass/point.rs:195-200) over the remaining bits, with a record. -/
def mulLoopF (P : Point) : List Bool → Point → T Point
  | [], q => T.ok q
  | ki :: bits, q => do
    let q ← q.coreDoublingF
    let q ← if ki then q.addF P else T.ok q
    mulLoopF P bits q

/-- `core_mul` (src/weierstrass/point.rs:193-202), with a record. -/
def coreMulF (prof : Profile) (P : Point) (k : Scalar) : T Point := do
  let q ← P.e.identityF
  let bits ← (⟨k.iterLR prof, []⟩ : T _)
  P.mulLoopF bits q

/-- `Point * Scalar` (src/weierstrass/point.rs:222-225); `Scalar * Point` calls it
(src/weierstrass/scalar.rs:90-110), with a record. -/
def mulF (prof : Profile) (P : Point) (k : Scalar) : T Point :=
  T.doIfEq ((P.e.r : Int) == k.r) (P.coreMulF prof k) .scalarMismatch

/-- `==` (src/weierstrass/point.rs:207-215). The four products are computed before the curves are compared. With a record. -/
def eqF (P Q : Point) : T Bool := do
  let x1z2 ← P.c.x *ₜ Q.c.z
  let z1x2 ← P.c.z *ₜ Q.c.x
  let y1z2 ← P.c.y *ₜ Q.c.z
  let z1y2 ← P.c.z *ₜ Q.c.y
  return P.e == Q.e && x1z2 == z1x2 && y1z2 == z1y2

end Weierstrass.Point

namespace Montgomery.Curve

/-- `is_on_curve` (src/montgomery/curve.rs:68-74), with a record. -/
def isOnCurveF (e : Curve) (pt : Point) : T Bool := do
  let p := pt.c
  let l ← e.b *ₜ p.y ^²ₜ *ₜ p.z
  let r ← p.x *ₜ (p.x ^²ₜ +ₜ e.a *ₜ p.x *ₜ p.z +ₜ p.z ^²ₜ)
  let d ← l -ₜ r
  return d.isZero

/-- `new_proy_point` (src/montgomery/curve.rs:37-41), with a record. -/
def newProyPointF (e : Curve) (c : ProyCoordinates) : T Point := do
  let pt : Point := ⟨e, c⟩
  T.doIfEq (← e.isOnCurveF pt) (T.ok pt) .notValidPoint

/-- `new_point` (src/montgomery/curve.rs:48-56), with a record. -/
def newPointF (e : Curve) (x y : FpElt) : T Point := do
  let pt : Point := ⟨e, ⟨x, y, ← e.f.oneF⟩⟩
  T.doIfEq (← e.isOnCurveF pt) (T.ok pt) .notValidPoint

/-- `identity` (src/montgomery/curve.rs:60-67), with a record. -/
def identityF (e : Curve) : T Point := do
  e.newProyPointF ⟨← e.f.zeroF, ← e.f.oneF, ← e.f.zeroF⟩

end Montgomery.Curve

namespace Montgomery.Point

/-- `normalize` (src/montgomery/point.rs:67-72): the point after the call, with a record. -/
def normalizeF (P : Point) : T Point := do
  let inv_z ← P.c.z.invF
  let x ← P.c.x *ₜ inv_z
  let y ← P.c.y *ₜ inv_z
  return { P with c := ⟨x, y, P.c.z.setOne⟩ }

/-- `core_neg`, unary `-` (src/montgomery/point.rs:73-79, 136), with a record. -/
def negF (P : Point) : T Point := do
  P.e.newProyPointF ⟨P.c.x, ← P.c.y.negF, P.c.z⟩

/-- The coordinates computed by `core_add` (src/montgomery/point.rs:80-103), with a record. -/
def coreAddCoordsF (P Q : Point) : T ProyCoordinates := do
  let (x1, y1, z1) := (P.c.x, P.c.y, P.c.z)
  let (x2, y2, z2) := (Q.c.x, Q.c.y, Q.c.z)
  let (a_ec, s_ec) := (P.e.a, P.e.s)
  let t0 ← x1 *ₜ x2
  let t1 ← y1 *ₜ y2
  let t2 ← z1 *ₜ z2
  let t3 ← x1 *ₜ y2
  let t4 ← x2 *ₜ y1
  let t5 ← y1 *ₜ z2
  let t6 ← y2 *ₜ z1
  let t7 ← x1 *ₜ z2
  let t8 ← x2 *ₜ z1
  let t9 ← t7 +ₜ t8
  let ta ← t9 +ₜ (t0 *ₜ a_ec)
  let rr ← t5 +ₜ t6
  let tt ← ta -ₜ t1
  let vv ← t9 *ₜ a_ec +ₜ t0 +ₜ t0 +ₜ t0 +ₜ t2
  let ss ← (t3 -ₜ t4) *ₜ s_ec +ₜ t0 -ₜ t2
  let uu ← (t7 -ₜ t8) *ₜ s_ec -ₜ t3 -ₜ t4
  let ww ← (t5 -ₜ t6) *ₜ s_ec +ₜ ta +ₜ t1
  let x3 ← rr *ₜ ss -ₜ tt *ₜ uu
  let y3 ← tt *ₜ ww -ₜ vv *ₜ ss
  let z3 ← vv *ₜ uu -ₜ rr *ₜ ww
  return ⟨x3, y3, z3⟩

/-- `core_add` (src/montgomery/point.rs:80-104), with a record. -/
def coreAddF (P Q : Point) : T Point := do
  P.e.newProyPointF (← P.coreAddCoordsF Q)

/-- binary `+` (src/montgomery/point.rs:132-134), with a record. -/
def addF (P Q : Point) : T Point := T.doIfEq (P.e == Q.e) (P.coreAddF Q) .differentCurves

/-- binary `-` (src/montgomery/point.rs:135), with a record. -/
def subF (P Q : Point) : T Point := do P.addF (← Q.negF)

/-- The loop of `core_mul` (src/montgomery/point.rs:107-112) over the remaining bits, with a record. -/
def mulLoopF (P : Point) : List Bool → Point → T Point
  | [], q => T.ok q
  | ki :: bits, q => do
    let q ← q.addF q
    let q ← if ki then q.addF P else T.ok q
    mulLoopF P bits q

/-- `core_mul` (src/montgomery/point.rs:105-114), with a record. -/
def coreMulF (prof : Profile) (P : Point) (k : Scalar) : T Point := do
  let q ← P.e.identityF
  let bits ← (⟨k.iterLR prof, []⟩ : T _)
  P.mulLoopF bits q

/-- `Point * Scalar` (src/montgomery/point.rs:137-140), with a record. -/
def mulF (prof : Profile) (P : Point) (k : Scalar) : T Point :=
  T.doIfEq ((P.e.r : Int) == k.r) (P.coreMulF prof k) .scalarMismatch

/-- `==` (src/montgomery/point.rs:123-129), with a record. -/
def eqF (P Q : Point) : T Bool := do
  let x1z2 ← P.c.x *ₜ Q.c.z
  let z1x2 ← P.c.z *ₜ Q.c.x
  let y1z2 ← P.c.y *ₜ Q.c.z
  let z1y2 ← P.c.z *ₜ Q.c.y
  return P.e == Q.e && x1z2 == z1x2 && y1z2 == z1y2

end Montgomery.Point

namespace Edwards.Curve

/-- `is_on_curve` (src/edwards/curve.rs:72-85), with a record. -/
def isOnCurveF (e : Curve) (pt : Point) : T Bool := do
  let p := pt.c
  let x2 ← p.x ^²ₜ
  let y2 ← p.y ^²ₜ
  let t2 ← p.t ^²ₜ
  let z2 ← p.z ^²ₜ
  let l1 ← x2 *ₜ e.a +ₜ y2
  let r1 ← t2 *ₜ e.d +ₜ z2
  let l2 ← p.x *ₜ p.y
  let r2 ← p.t *ₜ p.z
  let e1 ← l1 -ₜ r1
  let e2 ← l2 -ₜ r2
  return e1.isZero && e2.isZero

/-- `new_proy_point` (src/edwards/curve.rs:34-38), with a record. -/
def newProyPointF (e : Curve) (c : ProyCoordinates) : T Point := do
  let pt : Point := ⟨e, c⟩
  T.doIfEq (← e.isOnCurveF pt) (T.ok pt) .notValidPoint

/-- `new_point` (src/edwards/curve.rs:45-58), with a record. -/
def newPointF (e : Curve) (x y : FpElt) : T Point := do
  let pt : Point := ⟨e, ⟨x, y, ← x *ₜ y, ← e.f.oneF⟩⟩
  T.doIfEq (← e.isOnCurveF pt) (T.ok pt) .notValidPoint

/-- `identity` (src/edwards/curve.rs:63-71), with a record. -/
def identityF (e : Curve) : T Point := do
  e.newProyPointF ⟨← e.f.zeroF, ← e.f.oneF, ← e.f.zeroF, ← e.f.oneF⟩

end Edwards.Curve

namespace Edwards.Point

/-- `normalize` (src/edwards/point.rs:56-62): the point after the call, with a record. -/
def normalizeF (P : Point) : T Point := do
  let inv_z ← P.c.z.invF
  let x ← P.c.x *ₜ inv_z
  let y ← P.c.y *ₜ inv_z
  let t ← x *ₜ y
  return { P with c := ⟨x, y, t, P.c.z.setOne⟩ }

/-- `core_neg`, unary `-` (src/edwards/point.rs:63-70, 124), with a record. -/
def negF (P : Point) : T Point := do
  P.e.newProyPointF ⟨← P.c.x.negF, P.c.y, ← P.c.t.negF, P.c.z⟩

/-- The coordinates computed by `core_add` (src/edwards/point.rs:71-92), with a record. -/
def coreAddCoordsF (P Q : Point) : T ProyCoordinates := do
  let (x1, y1, t1, z1) := (P.c.x, P.c.y, P.c.t, P.c.z)
  let (x2, y2, t2, z2) := (Q.c.x, Q.c.y, Q.c.t, Q.c.z)
  let (a_ec, d_ec) := (P.e.a, P.e.d)
  let aa ← x1 *ₜ x2 --                               A = X1 * X2
  let bb ← y1 *ₜ y2 --                               B = Y1 * Y2
  let cc ← d_ec *ₜ t1 *ₜ t2 --                       C = d*T1 * T2
  let dd ← z1 *ₜ z2 --                               D = Z1 * Z2
  let ee ← (x1 +ₜ y1) *ₜ (x2 +ₜ y2) -ₜ aa -ₜ bb --   E = (X1 + Y1) * (X2 + Y2) - A - B
  let ff ← dd -ₜ cc --                               F = D - C
  let gg ← dd +ₜ cc --                               G = D + C
  let hh ← bb -ₜ aa *ₜ a_ec --                       H = B - a*A
  let x3 ← ee *ₜ ff --                               X3 = E * F
  let y3 ← gg *ₜ hh --                               Y3 = G * H
  let t3 ← ee *ₜ hh --                               T3 = E * H
  let z3 ← ff *ₜ gg --                               Z3 = F * G
  return ⟨x3, y3, t3, z3⟩

/-- `core_add` (src/edwards/point.rs:71-93), with a record. -/
def coreAddF (P Q : Point) : T Point := do
  P.e.newProyPointF (← P.coreAddCoordsF Q)

/-- binary `+` (src/edwards/point.rs:120-122), with a record. -/
def addF (P Q : Point) : T Point := T.doIfEq (P.e == Q.e) (P.coreAddF Q) .differentCurves

/-- binary `-` (src/edwards/point.rs:123), with a record. -/
def subF (P Q : Point) : T Point := do P.addF (← Q.negF)

/-- The loop of `core_mul` (src/edwards/point.rs:96-101) over the remaining bits, with a record. -/
def mulLoopF (P : Point) : List Bool → Point → T Point
  | [], q => T.ok q
  | ki :: bits, q => do
    let q ← q.addF q
    let q ← if ki then q.addF P else T.ok q
    mulLoopF P bits q

/-- `core_mul` (src/edwards/point.rs:94-103), with a record. -/
def coreMulF (prof : Profile) (P : Point) (k : Scalar) : T Point := do
  let q ← P.e.identityF
  let bits ← (⟨k.iterLR prof, []⟩ : T _)
  P.mulLoopF bits q

/-- `Point * Scalar` (src/edwards/point.rs:125-128), with a record. -/
def mulF (prof : Profile) (P : Point) (k : Scalar) : T Point :=
  T.doIfEq ((P.e.r : Int) == k.r) (P.coreMulF prof k) .scalarMismatch

/-- `==` (src/edwards/point.rs:108-117), with a record. -/
def eqF (P Q : Point) : T Bool := do
  let x1z2 ← P.c.x *ₜ Q.c.z
  let z1x2 ← P.c.z *ₜ Q.c.x
  let y1z2 ← P.c.y *ₜ Q.c.z
  let z1y2 ← P.c.z *ₜ Q.c.y
  let t1z2 ← P.c.t *ₜ Q.c.z
  let z1t2 ← P.c.z *ₜ Q.c.t
  return P.e == Q.e && x1z2 == z1x2 && y1z2 == z1y2 && t1z2 == z1t2

end Edwards.Point

namespace Weierstrass.SSWU

/-- `SSWU::map` (src/weierstrass/sswu.rs:41-70), with a record. -/
def mapF (m : SSWU) (u : FpElt) : T Point := do
  let f := m.e.getField
  let cmov := FpElt.cmov
  let mut t1 ← u ^²ₜ --                      0.   t1 = u^2
  t1 ← m.z *ₜ t1 --                         1.   t1 = Z * u^2
  let mut t2 ← t1 ^²ₜ --                     2.   t2 = t1^2
  let mut x1 ← t1 +ₜ t2 --                  3.   x1 = t1 + t2
  x1 ← T.finv x1 --                         4.   x1 = inv0(x1)
  let e1 := x1.isZero --                    5.   e1 = x1 == 0
  x1 ← x1 +ₜ f.oneF --                       6.   x1 = x1 + 1
  x1 := cmov x1 m.c2 e1 --                  7.   x1 = CMOV(x1, c2, e1)
  x1 ← x1 *ₜ m.c1 --                        8.   x1 = x1 * c1
  let mut gx1 ← x1 ^²ₜ --                    9.  gx1 = x1^2
  gx1 ← gx1 +ₜ m.e.a --                     10. gx1 = gx1 + A
  gx1 ← gx1 *ₜ x1 --                        11. gx1 = gx1 * x1
  gx1 ← gx1 +ₜ m.e.b --                     12. gx1 = gx1 + B
  let x2 ← t1 *ₜ x1 --                      13.  x2 = t1 * x1
  t2 ← t1 *ₜ t2 --                          14.  t2 = t1 * t2
  let gx2 ← gx1 *ₜ t2 --                    15. gx2 = gx1 * t2
  let e2 ← gx1.isSquareF --                  16.  e2 = is_square(gx1)
  let x := cmov x2 x1 e2 --                 17.   x = CMOV(x2, x1, e2)
  let y2 := cmov gx2 gx1 e2 --              18.  y2 = CMOV(gx2, gx1, e2)
  let mut y ← y2.sqrtF --                    19.   y = sqrt(y2)
  let e3 := u.sgn0 == y.sgn0 --             20.  e3 = sgn0(u) == sgn0(y)
  y := cmov (← y.negF) y e3 --               21.   y = CMOV(-y, y, e3)
  m.e.newPointF x y

end Weierstrass.SSWU

namespace Weierstrass.SVDW

/-- `SVDW::map` (src/weierstrass/svdw.rs:65-107), with a record. -/
def mapF (m : SVDW) (u : FpElt) : T Point := do
  let f := m.e.getField
  let cmov := FpElt.cmov
  let mut t1 ← u ^²ₜ --                      1.   t1 = u^2
  t1 ← t1 *ₜ m.c1 --                        2.   t1 = t1 * c1
  let t2 ← f.oneF +ₜ t1 --                   3.   t2 = 1 + t1
  t1 ← f.oneF -ₜ t1 --                       4.   t1 = 1 - t1
  let mut t3 ← t1 *ₜ t2 --                  5.   t3 = t1 * t2
  t3 ← T.finv t3 --                         6.   t3 = inv0(t3)
  let mut t4 ← u *ₜ t1 --                   7.   t4 = u * t1
  t4 ← t4 *ₜ t3 --                          8.   t4 = t4 * t3
  t4 ← t4 *ₜ m.c3 --                        9.   t4 = t4 * c3
  let x1 ← m.c2 -ₜ t4 --                    10.  x1 = c2 - t4
  let mut gx1 ← x1 ^²ₜ --                    11. gx1 = x1^2
  gx1 ← gx1 +ₜ m.e.a --                     12. gx1 = gx1 + A
  gx1 ← gx1 *ₜ x1 --                        13. gx1 = gx1 * x1
  gx1 ← gx1 +ₜ m.e.b --                     14. gx1 = gx1 + B
  let e1 ← gx1.isSquareF --                  15.  e1 = is_square(gx1)
  let x2 ← m.c2 +ₜ t4 --                    16.  x2 = c2 + t4
  let mut gx2 ← x2 ^²ₜ --                    17. gx2 = x2^2
  gx2 ← gx2 +ₜ m.e.a --                     18. gx2 = gx2 + A
  gx2 ← gx2 *ₜ x2 --                        19. gx2 = gx2 * x2
  gx2 ← gx2 +ₜ m.e.b --                     20. gx2 = gx2 + B
  let e2 := (← gx2.isSquareF) && !e1 --      21.  e2 = is_square(gx2) AND NOT e1
  let mut x3 ← t2 ^²ₜ --                     22.  x3 = t2^2
  x3 ← x3 *ₜ t3 --                          23.  x3 = x3 * t3
  x3 ← x3 ^²ₜ --                             24.  x3 = x3^2
  x3 ← x3 *ₜ m.c4 --                        25.  x3 = x3 * c4
  x3 ← x3 +ₜ m.z --                         26.  x3 = x3 + Z
  let mut x := cmov x3 x1 e1 --             27.   x = CMOV(x3, x1, e1)
  x := cmov x x2 e2 --                      28.   x = CMOV(x, x2, e2)
  let mut gx ← x ^²ₜ --                      29.  gx = x^2
  gx ← gx +ₜ m.e.a --                       30.  gx = gx + A
  gx ← gx *ₜ x --                           31.  gx = gx * x
  gx ← gx +ₜ m.e.b --                       32.  gx = gx + B
  let mut y ← gx.sqrtF --                    33.   y = sqrt(gx)
  let e3 := u.sgn0 == y.sgn0 --             34.  e3 = sgn0(u) == sgn0(y)
  y := cmov (← y.negF) y e3 --               35.   y = CMOV(-y, y, e3)
  m.e.newPointF x y

end Weierstrass.SVDW

namespace Montgomery.Ell2

/-- `Ell2::map` (src/montgomery/elligator2.rs:36-64), with a record. -/
def mapF (m : Ell2) (u : FpElt) : T Point := do
  let f := m.e.getField
  let cmov := FpElt.cmov
  let mut t1 ← u ^²ₜ --                      1.   t1 = u^2
  t1 ← m.z *ₜ t1 --                         2.   t1 = Z * t1
  let e1 := t1 == (← f.fromPrimF (-1)) --    3.   e1 = t1 == -1
  t1 := cmov t1 (← f.zeroF) e1 --            4.   t1 = CMOV(t1, 0, e1)
  let mut x1 ← t1 +ₜ f.oneF --               5.   x1 = t1 + 1
  x1 ← T.finv x1 --                         6.   x1 = inv0(x1)
  x1 ← (-ₜ m.ca) *ₜ x1 --                   7.   x1 = -A * x1
  let mut gx1 ← x1 +ₜ m.ca --               8.  gx1 = x1 + A
  gx1 ← gx1 *ₜ x1 --                        9.  gx1 = gx1 * x1
  gx1 ← gx1 +ₜ m.cb --                      10. gx1 = gx1 + B
  gx1 ← gx1 *ₜ x1 --                        11. gx1 = gx1 * x1
  let x2 ← (-ₜ x1) -ₜ m.ca --               12.  x2 = -x1 - A
  let gx2 ← t1 *ₜ gx1 --                    13. gx2 = t1 * gx1
  let e2 ← gx1.isSquareF --                  14.  e2 = is_square(gx1)
  let mut x := cmov x2 x1 e2 --             15.   x = CMOV(x2, x1, e2)
  let y2 := cmov gx2 gx1 e2 --              16.  y2 = CMOV(gx2, gx1, e2)
  let mut y ← y2.sqrtF --                    17.   y = sqrt(y2)
  let e3 := y.sgn0 == 1 --                  18.  e3 = sgn0(y) == 1
  y := cmov (← y.negF) y (e2 ^^ e3) --       19.   y = CMOV(-y, y, e2 xor e3)
  x ← x *ₜ m.e.b
  y ← y *ₜ m.e.b
  m.e.newPointF x y

end Montgomery.Ell2

/-- One accumulator of the loops `for i in (0..n).rev() { acc = (acc * &x) + &c[i] }`
(src/instances/rational_maps.rs:222-227, 335-342) with `n = c.len()`. The four accumulators are independent; all
coefficient vectors indexed by one loop have the same length. Simplified: the code advances the accumulators of one loop in turn; they are recorded one after
the other. With a record. -/
def hornerF (f : Fp) (x : FpElt) : List FpElt → T FpElt
  | [] => f.zeroF
  | c :: cs => (hornerF f x cs *ₜ x) +ₜ c

namespace IsoMap

/-- `push` (src/instances/rational_maps.rs:213-231, 326-347), with a record. -/
def pushF (m : IsoMap) (p : Weierstrass.Point) : T Weierstrass.Point := do
  let f := m.e0.getField
  let x := p.c.x
  let y := p.c.y
  let x_num ← hornerF f x m.x_num
  let x_den ← hornerF f x m.x_den
  let y_num ← hornerF f x m.y_num
  let y_den ← hornerF f x m.y_den
  let xx ← x_num /ₜ x_den
  let yy ← y *ₜ (y_num /ₜ y_den)
  m.e1.newPointF xx yy

end IsoMap

namespace Ed2Mt25519

/-- `push` (src/instances/rational_maps.rs:42-57), with a record. -/
def pushF (m : Ed2Mt25519) (p : Edwards.Point) : T Montgomery.Point := do
  if p.isZero then m.e1.identityF
  else
    let (x, y, z) := (p.c.x, p.c.y, p.c.z)
    let t0 ← z +ₜ y
    let xx ← x *ₜ t0
    let yy ← m.invsqr_d *ₜ z *ₜ t0
    let zz ← x *ₜ (z -ₜ y)
    m.e1.newProyPointF ⟨xx, yy, zz⟩

/-- `pull` (src/instances/rational_maps.rs:58-84), with a record. -/
def pullF (m : Ed2Mt25519) (p : Montgomery.Point) : T Edwards.Point := do
  if p.isZero then m.e0.identityF
  else if p.isTwoTorsion then
    let ff := m.e0.getField
    m.e0.newProyPointF ⟨← ff.zeroF, ← -ₜ ff.oneF, ← ff.zeroF, ← ff.oneF⟩
  else
    let (x, y, z) := (p.c.x, p.c.y, p.c.z)
    let add ← x +ₜ z
    let sub ← x -ₜ z
    let xx ← m.invsqr_d *ₜ x *ₜ add
    let yy ← y *ₜ sub
    let tt ← m.invsqr_d *ₜ x *ₜ sub
    let zz ← y *ₜ add
    m.e0.newProyPointF ⟨xx, yy, tt, zz⟩

end Ed2Mt25519

namespace Ed4isoMt448

/-- `push` (src/instances/rational_maps.rs:108-127), with a record. -/
def pushF (m : Ed4isoMt448) (p : Edwards.Point) : T Montgomery.Point := do
  if p.isZero then m.e1.identityF
  else
    let (x, y, z) := (p.c.x, p.c.y, p.c.z)
    let ff := m.e1.getField
    let f2 ← ff.fromPrimF 2
    let x2 ← x ^²ₜ
    let y2 ← y ^²ₜ
    let z2 ← z ^²ₜ
    let zz ← x *ₜ x2
    let xx ← x *ₜ y2
    let yy ← y *ₜ (f2 *ₜ z2 -ₜ y2 -ₜ x2)
    m.e1.newProyPointF ⟨xx, yy, zz⟩

/-- `pull` (src/instances/rational_maps.rs:128-158), with a record. -/
def pullF (m : Ed4isoMt448) (p : Montgomery.Point) : T Edwards.Point := do
  if p.isZero then m.e0.identityF
  else
    let ff := m.e0.getField
    let f2 ← ff.fromPrimF 2
    let f4 ← ff.fromPrimF 4
    let (x, y, z) := (p.c.x, p.c.y, p.c.z)
    let x2 ← x ^²ₜ
    let x3 ← x2 *ₜ x
    let x4 ← x2 ^²ₜ
    let x5 ← x3 *ₜ x2
    let y2 ← y ^²ₜ
    let z2 ← z ^²ₜ
    let z3 ← z2 *ₜ z
    let z4 ← z2 ^²ₜ
    let xx ← f4 *ₜ y *ₜ z *ₜ (x2 -ₜ z2)
    let z0 ← x4 -ₜ f2 *ₜ x2 *ₜ z2 +ₜ z4 +ₜ f4 *ₜ y2 *ₜ z2
    let yy ← -ₜ (x5 -ₜ f2 *ₜ x3 *ₜ z2 +ₜ x *ₜ z4 -ₜ f4 *ₜ x *ₜ y2 *ₜ z2)
    let z1 ← x5 -ₜ f2 *ₜ x3 *ₜ z2 +ₜ x *ₜ z4 -ₜ f2 *ₜ x2 *ₜ y2 *ₜ z -ₜ f2 *ₜ y2 *ₜ z3
    let tt ← xx *ₜ yy
    let xx ← xx *ₜ z1
    let yy ← yy *ₜ z0
    let zz ← z0 *ₜ z1
    m.e0.newProyPointF ⟨xx, yy, tt, zz⟩

end Ed4isoMt448

/-- `SSWUAB0::map` (src/weierstrass/sswuab0.rs:33-38) for the isogenies of src/instances/rational_maps.rs, with a record. -/
def Weierstrass.SSWUAB0.mapF (iso : IsoMap) (sswu : Weierstrass.SSWU) (u : FpElt) : T Weierstrass.Point := do iso.pushF (← sswu.mapF u)

/-- `Ell2::map` (src/edwards/elligator2.rs:41-46) with the map between edwards25519 and curve25519, with a record. -/
def Edwards.Ell2.mapF25519 (ratmap : Ed2Mt25519) (m : Montgomery.Ell2) (u : FpElt) : T Edwards.Point := do ratmap.pullF (← m.mapF u)

/-- `Ell2::map` (src/edwards/elligator2.rs:41-46) with the map between edwards448 and curve448, with a record. -/
def Edwards.Ell2.mapF448 (ratmap : Ed4isoMt448) (m : Montgomery.Ell2) (u : FpElt) : T Edwards.Point := do ratmap.pullF (← m.mapF u)

end Redox
