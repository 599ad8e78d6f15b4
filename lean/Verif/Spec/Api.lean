import Verif.Model.RationalMaps
import Verif.Spec.QuadField
import Verif.Spec.Weierstrass
import Verif.Spec.Montgomery
import Verif.Spec.Edwards

/-!
# Everything a user can obtain from the library

`Val` is the type of all values the library hands out; all their fields are private, so a user can only combine them by
calling the public functions. `Api v` says that some finite sequence of calls, each of which returned, produced `v`.
`WellFormed v` says what the documentation promises about `v`, in terms of integers and residues.
-/

namespace Redox.Spec

/-- A value of one of the library's public types. -/
inductive Val
  | fp (f : Fp)
  | elt (x : FpElt)
  | fp2 (f : Fp2)
  | elt2 (x : Fp2Elt)
  | scalar (k : Scalar)
  | wc (e : Weierstrass.Curve)
  | wp (P : Weierstrass.Point)
  | mc (e : Montgomery.Curve)
  | mp (P : Montgomery.Point)
  | ec (e : Edwards.Curve)
  | ep (P : Edwards.Point)
  | sswu (m : Weierstrass.SSWU)
  | svdw (m : Weierstrass.SVDW)
  | iso (m : IsoMap)
  | sswuab0 (m : Weierstrass.SSWUAB0)
  | mell2 (m : Montgomery.Ell2)
  | rat25519 (m : Ed2Mt25519)
  | rat448 (m : Ed4isoMt448)
  | eell2 (m : Edwards.Ell2)

open Val

/-- The values produced by finite sequences of public calls. A step is recorded when the call returned a value. Moduli
given by the user are at least 2. -/
inductive Api : Val → Prop
  -- prime fields
  | fpNew (p : ℕ) : 2 ≤ p → Api (fp (Fp.new p))
  | elt {f x} (n : ℤ) : Api (fp f) → f.elt n = R.ok x → Api (elt x)
  | zero {f x} : Api (fp f) → f.zero = R.ok x → Api (elt x)
  | one {f x} : Api (fp f) → f.one = R.ok x → Api (elt x)
  | fromPrim {f x} (n : ℤ) : Api (fp f) → f.fromPrim n = R.ok x → Api (elt x)
  | fromStr {f x} (s : List Byte) : Api (fp f) → f.fromStr s = R.ok x → Api (elt x)
  | fromBytesBE {f x} (s : List Byte) : Api (fp f) → f.fromBytesBE s = R.ok x → Api (elt x)
  | fromBytesLE {f x} (s : List Byte) : Api (fp f) → f.fromBytesLE s = R.ok x → Api (elt x)
  | add {x y z} : Api (elt x) → Api (elt y) → x.add y = R.ok z → Api (elt z)
  | sub {x y z} : Api (elt x) → Api (elt y) → x.sub y = R.ok z → Api (elt z)
  | mul {x y z} : Api (elt x) → Api (elt y) → x.mul y = R.ok z → Api (elt z)
  | div {x y z} : Api (elt x) → Api (elt y) → x.div y = R.ok z → Api (elt z)
  | neg {x z} : Api (elt x) → x.neg = R.ok z → Api (elt z)
  | powU32 {x z} (k : ℕ) : Api (elt x) → x.powU32 k = R.ok z → Api (elt z)
  | powI32 {x z} (k : ℤ) : Api (elt x) → x.powI32 k = R.ok z → Api (elt z)
  | u32Div {x z} (k : ℕ) : Api (elt x) → FpElt.u32Div k x = R.ok z → Api (elt z)
  | powNat {x z} (k : ℕ) : Api (elt x) → x.powNat k = R.ok z → Api (elt z)
  | powInt {x z} (k : ℤ) : Api (elt x) → x.powInt k = R.ok z → Api (elt z)
  | sqrt {x z} : Api (elt x) → x.sqrt = R.ok z → Api (elt z)
  | cmov {x y} (b : Bool) : Api (elt x) → Api (elt y) → Api (elt (x.cmov y b))
  | setZero {x} : Api (elt x) → Api (elt x.setZero)
  | setOne {x} : Api (elt x) → Api (elt x.setOne)
  -- quadratic fields
  | fp2New (p : ℕ) : 2 ≤ p → Api (fp2 (Fp2.new p))
  | elt2 {f x} (n : ℤ) : Api (fp2 f) → f.elt n = R.ok x → Api (elt2 x)
  | zero2 {f x} : Api (fp2 f) → f.zero = R.ok x → Api (elt2 x)
  | one2 {f x} : Api (fp2 f) → f.one = R.ok x → Api (elt2 x)
  | fromStr2 {f x} (s : List Byte) : Api (fp2 f) → f.fromStr s = R.ok x → Api (elt2 x)
  | fromBytesBE2 {f x} (s : List Byte) : Api (fp2 f) → f.fromBytesBE s = R.ok (some x) → Api (elt2 x)
  | fromBytesLE2 {f x} (s : List Byte) : Api (fp2 f) → f.fromBytesLE s = R.ok (some x) → Api (elt2 x)
  | add2 {x y z} : Api (elt2 x) → Api (elt2 y) → x.add y = R.ok z → Api (elt2 z)
  | sub2 {x y z} : Api (elt2 x) → Api (elt2 y) → x.sub y = R.ok z → Api (elt2 z)
  | mul2 {x y z} : Api (elt2 x) → Api (elt2 y) → x.mul y = R.ok z → Api (elt2 z)
  | div2 {x y z} : Api (elt2 x) → Api (elt2 y) → x.div y = R.ok z → Api (elt2 z)
  | neg2 {x z} : Api (elt2 x) → x.neg = R.ok z → Api (elt2 z)
  | powU322 {x z} (k : ℕ) : Api (elt2 x) → x.powU32 k = R.ok z → Api (elt2 z)
  | powI322 {x z} (k : ℤ) : Api (elt2 x) → x.powI32 k = R.ok z → Api (elt2 z)
  | u32Div2 {x z} (k : ℕ) : Api (elt2 x) → Fp2Elt.u32Div k x = R.ok z → Api (elt2 z)
  | powNat2 {x z} (k : ℕ) : Api (elt2 x) → x.powNat k = R.ok z → Api (elt2 z)
  | powInt2 {x z} (k : ℤ) : Api (elt2 x) → x.powInt k = R.ok z → Api (elt2 z)
  | sqrt2 {x z} : Api (elt2 x) → x.sqrt = R.ok z → Api (elt2 z)
  | cmov2 {x y} (b : Bool) : Api (elt2 x) → Api (elt2 y) → Api (elt2 (x.cmov y b))
  | setZero2 {x} : Api (elt2 x) → Api (elt2 x.setZero)
  | setOne2 {x} : Api (elt2 x) → Api (elt2 x.setOne)
  -- scalars
  | scNew {s} (k : ℤ) (r : ℕ) : Scalar.new k r = R.ok s → Api (scalar s)
  | scAdd {s t u} : Api (scalar s) → Api (scalar t) → s.add t = R.ok u → Api (scalar u)
  | scSub {s t u} : Api (scalar s) → Api (scalar t) → s.sub t = R.ok u → Api (scalar u)
  | scMul {s t u} : Api (scalar s) → Api (scalar t) → s.mul t = R.ok u → Api (scalar u)
  | scDiv {s t u} : Api (scalar s) → Api (scalar t) → s.div t = R.ok u → Api (scalar u)
  | scNeg {s u} : Api (scalar s) → s.neg = R.ok u → Api (scalar u)
  | scU32Div {s u} (c : ℕ) : Api (scalar s) → Scalar.u32Div c s = R.ok u → Api (scalar u)
  -- Weierstrass curves
  | wcNew {e} (q : Weierstrass.Params) : Weierstrass.Curve.ofParams q = R.ok e → 2 ≤ e.f.p → Api (wc e)
  | wcField {e} : Api (wc e) → Api (fp e.getField)
  | wcScalar {e s} (k : ℤ) : Api (wc e) → e.newScalar k = R.ok s → Api (scalar s)
  | wcPoint {e x y P} : Api (wc e) → Api (elt x) → Api (elt y) → e.newPoint x y = R.ok P → Api (wp P)
  | wcIdentity {e P} : Api (wc e) → e.identity = R.ok P → Api (wp P)
  | wcGenerator {e P} : Api (wc e) → e.getGenerator = R.ok P → Api (wp P)
  | wcDecode {e P} (buf : List Byte) : Api (wc e) → e.decode buf = R.ok (.ok P) → Api (wp P)
  | wpNeg {P S} : Api (wp P) → P.neg = R.ok S → Api (wp S)
  | wpAdd {P Q S} : Api (wp P) → Api (wp Q) → P.add Q = R.ok S → Api (wp S)
  | wpSub {P Q S} : Api (wp P) → Api (wp Q) → P.sub Q = R.ok S → Api (wp S)
  | wpMul {P k S} (prof : Profile) : Api (wp P) → Api (scalar k) → P.mul prof k = R.ok S → Api (wp S)
  | wpNormalize {P S} : Api (wp P) → P.normalize = R.ok S → Api (wp S)
  -- Montgomery curves
  | mcNew {e} (q : Montgomery.Params) : Montgomery.Curve.ofParams q = R.ok e → 2 ≤ e.f.p → Api (mc e)
  | mcField {e} : Api (mc e) → Api (fp e.getField)
  | mcScalar {e s} (k : ℤ) : Api (mc e) → e.newScalar k = R.ok s → Api (scalar s)
  | mcPoint {e x y P} : Api (mc e) → Api (elt x) → Api (elt y) → e.newPoint x y = R.ok P → Api (mp P)
  | mcIdentity {e P} : Api (mc e) → e.identity = R.ok P → Api (mp P)
  | mcGenerator {e P} : Api (mc e) → e.getGenerator = R.ok P → Api (mp P)
  | mcDecode {e P} (buf : List Byte) : Api (mc e) → e.decode buf = R.ok (.ok P) → Api (mp P)
  | mpNeg {P S} : Api (mp P) → P.neg = R.ok S → Api (mp S)
  | mpAdd {P Q S} : Api (mp P) → Api (mp Q) → P.add Q = R.ok S → Api (mp S)
  | mpSub {P Q S} : Api (mp P) → Api (mp Q) → P.sub Q = R.ok S → Api (mp S)
  | mpMul {P k S} (prof : Profile) : Api (mp P) → Api (scalar k) → P.mul prof k = R.ok S → Api (mp S)
  | mpNormalize {P S} : Api (mp P) → P.normalize = R.ok S → Api (mp S)
  -- Edwards curves
  | ecNew {e} (q : Edwards.Params) : Edwards.Curve.ofParams q = R.ok e → 2 ≤ e.f.p → Api (ec e)
  | ecField {e} : Api (ec e) → Api (fp e.getField)
  | ecScalar {e s} (k : ℤ) : Api (ec e) → e.newScalar k = R.ok s → Api (scalar s)
  | ecPoint {e x y P} : Api (ec e) → Api (elt x) → Api (elt y) → e.newPoint x y = R.ok P → Api (ep P)
  | ecIdentity {e P} : Api (ec e) → e.identity = R.ok P → Api (ep P)
  | ecGenerator {e P} : Api (ec e) → e.getGenerator = R.ok P → Api (ep P)
  | ecDecode {e P} (buf : List Byte) : Api (ec e) → e.decode buf = R.ok (.ok P) → Api (ep P)
  | epNeg {P S} : Api (ep P) → P.neg = R.ok S → Api (ep S)
  | epAdd {P Q S} : Api (ep P) → Api (ep Q) → P.add Q = R.ok S → Api (ep S)
  | epSub {P Q S} : Api (ep P) → Api (ep Q) → P.sub Q = R.ok S → Api (ep S)
  | epMul {P k S} (prof : Profile) : Api (ep P) → Api (scalar k) → P.mul prof k = R.ok S → Api (ep S)
  | epNormalize {P S} : Api (ep P) → P.normalize = R.ok S → Api (ep S)
  -- maps to curves
  | sswuNew {e z m} : Api (wc e) → Api (elt z) → Weierstrass.SSWU.new e z = R.ok m → Api (sswu m)
  | sswuMap {m u P} : Api (sswu m) → Api (elt u) → m.map u = R.ok P → Api (wp P)
  | svdwNew {e z m} : Api (wc e) → Api (elt z) → Weierstrass.SVDW.new e z = R.ok m → Api (svdw m)
  | svdwMap {m u P} : Api (svdw m) → Api (elt u) → m.map u = R.ok P → Api (wp P)
  | mell2New {e z m} : Api (mc e) → Api (elt z) → Montgomery.Ell2.new e z = R.ok m → Api (mell2 m)
  | mell2Map {m u P} : Api (mell2 m) → Api (elt u) → m.map u = R.ok P → Api (mp P)
  -- isogenies and maps through them
  | isoSecp {m} : get_isogeny_secp256k1 = R.ok m → Api (iso m)
  | isoBls {m} : get_isogeny_bls12381g1 = R.ok m → Api (iso m)
  | isoDomain {m e} : Api (iso m) → m.toIsogeny.domain = R.ok e → Api (wc e)
  | isoCodomain {m e} : Api (iso m) → m.toIsogeny.codomain = R.ok e → Api (wc e)
  | isoPush {m P Q} : Api (iso m) → Api (wp P) → m.push P = R.ok Q → Api (wp Q)
  | sswuab0New {m e z s} : Api (iso m) → Api (wc e) → Api (elt z) →
      Weierstrass.SSWUAB0.new e z m.toIsogeny = R.ok s → Api (sswuab0 s)
  | sswuab0Map {m u P} : Api (sswuab0 m) → Api (elt u) → m.map u = R.ok P → Api (wp P)
  -- rational maps between curve models and maps through them
  | rat25519 {m} : edwards25519_to_curve25519 = R.ok m → Api (rat25519 m)
  | rat448 {m} : edwards448_to_curve448 = R.ok m → Api (rat448 m)
  | domain25519 {m e} : Api (rat25519 m) → m.toRationalMap.domain = R.ok e → Api (ec e)
  | domain448 {m e} : Api (rat448 m) → m.toRationalMap.domain = R.ok e → Api (ec e)
  | codomain25519 {m e} : Api (rat25519 m) → m.toRationalMap.codomain = R.ok e → Api (mc e)
  | codomain448 {m e} : Api (rat448 m) → m.toRationalMap.codomain = R.ok e → Api (mc e)
  | push25519 {m P Q} : Api (rat25519 m) → Api (ep P) → m.push P = R.ok Q → Api (mp Q)
  | push448 {m P Q} : Api (rat448 m) → Api (ep P) → m.push P = R.ok Q → Api (mp Q)
  | pull25519 {m P Q} : Api (rat25519 m) → Api (mp P) → m.pull P = R.ok Q → Api (ep Q)
  | pull448 {m P Q} : Api (rat448 m) → Api (mp P) → m.pull P = R.ok Q → Api (ep Q)
  | eell2New25519 {r e z m} : Api (rat25519 r) → Api (ec e) → Api (elt z) →
      Edwards.Ell2.new e z (some r.toRationalMap) = R.ok m → Api (eell2 m)
  | eell2New448 {r e z m} : Api (rat448 r) → Api (ec e) → Api (elt z) →
      Edwards.Ell2.new e z (some r.toRationalMap) = R.ok m → Api (eell2 m)
  | eell2Map {m u P} : Api (eell2 m) → Api (elt u) → m.map u = R.ok P → Api (ep P)

/-- The curve's field has modulus at least 2 and the constants are reduced elements of that field. -/
structure WcOk (e : Weierstrass.Curve) : Prop where
  mod : 2 ≤ e.f.p
  a : Canon e.f.p e.a
  b : Canon e.f.p e.b
  gx : Canon e.f.p e.gx
  gy : Canon e.f.p e.gy

/-- The coordinates are reduced elements of the curve's field. -/
structure WpReduced (P : Weierstrass.Point) : Prop where
  curve : WcOk P.e
  x : Canon P.e.f.p P.c.x
  y : Canon P.e.f.p P.c.y
  z : Canon P.e.f.p P.c.z

/-- Moreover the coordinates satisfy `y² z = x³ + a x z² + b z³`. -/
structure WpOk (P : Weierstrass.Point) : Prop extends WpReduced P where
  eqn : val P.e.f.p P.c.y ^ 2 * val P.e.f.p P.c.z = val P.e.f.p P.c.x ^ 3 +
    val P.e.f.p P.e.a * val P.e.f.p P.c.x * val P.e.f.p P.c.z ^ 2 + val P.e.f.p P.e.b * val P.e.f.p P.c.z ^ 3

/-- See `WcOk`. -/
structure McOk (e : Montgomery.Curve) : Prop where
  mod : 2 ≤ e.f.p
  a : Canon e.f.p e.a
  b : Canon e.f.p e.b
  s : Canon e.f.p e.s
  gx : Canon e.f.p e.gx
  gy : Canon e.f.p e.gy

/-- The coordinates are reduced elements of the curve's field. -/
structure MpReduced (P : Montgomery.Point) : Prop where
  curve : McOk P.e
  x : Canon P.e.f.p P.c.x
  y : Canon P.e.f.p P.c.y
  z : Canon P.e.f.p P.c.z

/-- Moreover the coordinates satisfy `b y² z = x³ + a x² z + x z²`. -/
structure MpOk (P : Montgomery.Point) : Prop extends MpReduced P where
  eqn : val P.e.f.p P.e.b * val P.e.f.p P.c.y ^ 2 * val P.e.f.p P.c.z = val P.e.f.p P.c.x ^ 3 +
    val P.e.f.p P.e.a * val P.e.f.p P.c.x ^ 2 * val P.e.f.p P.c.z + val P.e.f.p P.c.x * val P.e.f.p P.c.z ^ 2

/-- See `WcOk`. -/
structure EcOk (e : Edwards.Curve) : Prop where
  mod : 2 ≤ e.f.p
  a : Canon e.f.p e.a
  d : Canon e.f.p e.d
  gx : Canon e.f.p e.gx
  gy : Canon e.f.p e.gy

/-- The coordinates are reduced elements of the curve's field. -/
structure EpReduced (P : Edwards.Point) : Prop where
  curve : EcOk P.e
  x : Canon P.e.f.p P.c.x
  y : Canon P.e.f.p P.c.y
  t : Canon P.e.f.p P.c.t
  z : Canon P.e.f.p P.c.z

/-- Moreover the coordinates satisfy `a x² + y² = d t² + z²` and `x y = t z`. -/
structure EpOk (P : Edwards.Point) : Prop extends EpReduced P where
  eqn : val P.e.f.p P.e.a * val P.e.f.p P.c.x ^ 2 + val P.e.f.p P.c.y ^ 2 =
    val P.e.f.p P.e.d * val P.e.f.p P.c.t ^ 2 + val P.e.f.p P.c.z ^ 2
  seg : val P.e.f.p P.c.x * val P.e.f.p P.c.y = val P.e.f.p P.c.t * val P.e.f.p P.c.z

/-- A reduced element of its own field, whose modulus is at least 2. -/
def EltOk (x : FpElt) : Prop := 2 ≤ x.f.p ∧ Canon x.f.p x

/-- What is promised about a value. A point lies on its curve, unless it is the direct result of `normalize` on a point
at infinity or over a modulus that is not an odd prime; then its coordinates are still reduced and `normalize` leaves it
unchanged. -/
def WellFormed : Val → Prop
  | fp f => 2 ≤ f.p
  | elt x => EltOk x
  | fp2 f => 2 ≤ f.base.p
  | elt2 x => 2 ≤ x.f.base.p ∧ Canon2 x.f.base.p x
  | scalar s => 0 ≤ s.k ∧ s.k < s.r
  | wc e => WcOk e
  | wp P => WpOk P ∨ (WpReduced P ∧ P.normalize = R.ok P ∧ ∃ Q, Api (wp Q) ∧ Q.normalize = R.ok P ∧
      (Q.c.z.isZero = true ∨ ¬ (Q.e.f.p.Prime ∧ Q.e.f.p ≠ 2)))
  | mc e => McOk e
  | mp P => MpOk P ∨ (MpReduced P ∧ P.normalize = R.ok P ∧ ∃ Q, Api (mp Q) ∧ Q.normalize = R.ok P ∧
      ¬ (Q.e.f.p.Prime ∧ Q.e.f.p ≠ 2))
  | ec e => EcOk e
  | ep P => EpOk P ∨ (EpReduced P ∧ P.normalize = R.ok P ∧ ∃ Q, Api (ep Q) ∧ Q.normalize = R.ok P ∧
      (Q.c.z.isZero = true ∨ ¬ (Q.e.f.p.Prime ∧ Q.e.f.p ≠ 2)))
  | sswu m => WcOk m.e ∧ Canon m.e.f.p m.c1 ∧ Canon m.e.f.p m.c2 ∧ Canon m.e.f.p m.z
  | svdw m => WcOk m.e ∧ Canon m.e.f.p m.c1 ∧ Canon m.e.f.p m.c2 ∧ Canon m.e.f.p m.c3 ∧ Canon m.e.f.p m.c4 ∧
      Canon m.e.f.p m.z
  | iso m => WcOk m.e0 ∧ WcOk m.e1
  | sswuab0 m => (WcOk m.sswu.e ∧ Canon m.sswu.e.f.p m.sswu.z) ∧ ∃ i : IsoMap, m.iso = i.toIsogeny ∧ WcOk i.e1
  | mell2 m => McOk m.e ∧ Canon m.e.f.p m.ca ∧ Canon m.e.f.p m.cb ∧ EltOk m.z
  | rat25519 m => EcOk m.e0 ∧ McOk m.e1 ∧ EltOk m.invsqr_d
  | rat448 m => EcOk m.e0 ∧ McOk m.e1
  | eell2 m => McOk m.mapToCurve.e ∧ ((∃ r : Ed2Mt25519, m.ratmap = r.toRationalMap ∧ EcOk r.e0) ∨
      ∃ r : Ed4isoMt448, m.ratmap = r.toRationalMap ∧ EcOk r.e0)

end Redox.Spec
