import Verif.Model.Weierstrass
import Verif.Model.Montgomery
import Verif.Model.Edwards

/-!
# Scalar multiplication with a record of the group operations it calls

The functions below are those of `Model/Weierstrass.lean`, `Model/Montgomery.lean` and `Model/Edwards.lean` with one addition: they also return
which group operations were called, in order. A call of `core_doubling`, and of `+` with two copies of the accumulator, is recorded as `dbl`;
a call of `+` with the point as `add`. That forgetting the record gives back the original function is proved in `Props/TraceProps.lean`.
-/

namespace Redox

/-- A call of a group operation in `core_mul`. -/
inductive GroupOp where
  | dbl
  | add
deriving DecidableEq, Repr

/-- The loop of `core_mul` (src/weierstrass/point.rs:195-200) with a record. -/
def Weierstrass.Point.mulLoopT (P : Weierstrass.Point) : List Bool → Weierstrass.Point → R (Weierstrass.Point × List GroupOp)
  | [], q => R.ok (q, [])
  | ki :: bits, q => do
    let q ← q.coreDoubling
    let (q, w) ← if ki then (q.add P).bind fun q => R.ok (q, [GroupOp.add]) else R.ok (q, [])
    let (q, t) ← Weierstrass.Point.mulLoopT P bits q
    return (q, .dbl :: (w ++ t))

/-- `Point * Scalar` (src/weierstrass/point.rs:193-202, 222-225) with a record. -/
def Weierstrass.Point.mulT (prof : Profile) (P : Weierstrass.Point) (k : Scalar) : R (Weierstrass.Point × List GroupOp) :=
  doIfEq ((P.e.r : Int) == k.r) (do
    let q ← P.e.identity
    let bits ← k.iterLR prof
    P.mulLoopT bits q) .scalarMismatch

/-- The loop of `core_mul` (src/montgomery/point.rs:107-112) with a record. -/
def Montgomery.Point.mulLoopT (P : Montgomery.Point) : List Bool → Montgomery.Point → R (Montgomery.Point × List GroupOp)
  | [], q => R.ok (q, [])
  | ki :: bits, q => do
    let q ← q.add q
    let (q, w) ← if ki then (q.add P).bind fun q => R.ok (q, [GroupOp.add]) else R.ok (q, [])
    let (q, t) ← Montgomery.Point.mulLoopT P bits q
    return (q, .dbl :: (w ++ t))

/-- `Point * Scalar` (src/montgomery/point.rs:105-114, 137-140) with a record. -/
def Montgomery.Point.mulT (prof : Profile) (P : Montgomery.Point) (k : Scalar) : R (Montgomery.Point × List GroupOp) :=
  doIfEq ((P.e.r : Int) == k.r) (do
    let q ← P.e.identity
    let bits ← k.iterLR prof
    P.mulLoopT bits q) .scalarMismatch

/-- The loop of `core_mul` (src/edwards/point.rs:96-101) with a record. -/
def Edwards.Point.mulLoopT (P : Edwards.Point) : List Bool → Edwards.Point → R (Edwards.Point × List GroupOp)
  | [], q => R.ok (q, [])
  | ki :: bits, q => do
    let q ← q.add q
    let (q, w) ← if ki then (q.add P).bind fun q => R.ok (q, [GroupOp.add]) else R.ok (q, [])
    let (q, t) ← Edwards.Point.mulLoopT P bits q
    return (q, .dbl :: (w ++ t))

/-- `Point * Scalar` (src/edwards/point.rs:94-103, 125-128) with a record. -/
def Edwards.Point.mulT (prof : Profile) (P : Edwards.Point) (k : Scalar) : R (Edwards.Point × List GroupOp) :=
  doIfEq ((P.e.r : Int) == k.r) (do
    let q ← P.e.identity
    let bits ← k.iterLR prof
    P.mulLoopT bits q) .scalarMismatch

end Redox
