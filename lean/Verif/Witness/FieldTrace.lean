import Verif.Props.CodecTraceProps
import Verif.Props.FieldTraceProps
import Verif.Props.MapTraceProps
import Verif.Witness.Base

/-!
# C108, C109, C114: concrete cases that meet the hypotheses
-/

namespace Redox.Witness

open Redox Redox.Spec Redox.Props Redox.Inst Redox.Props.Inst

theorem wG_over : WOver p256_p wG := ⟨rfl, rfl, rfl, rfl, rfl, rfl⟩
theorem wH_over : WOver p256_p wH := ⟨rfl, rfl, rfl, rfl, rfl, rfl⟩
theorem mH_over : MOver curve25519_p mH := ⟨rfl, rfl, rfl, rfl, rfl, rfl, rfl⟩
theorem eH_over : EOver curve25519_p eH := ⟨rfl, rfl, rfl, rfl, rfl, rfl, rfl⟩
theorem mG_over : MOver curve25519_p mG := ⟨rfl, rfl, rfl, rfl, rfl, rfl, rfl⟩
theorem eG_over : EOver curve25519_p eG := ⟨rfl, rfl, rfl, rfl, rfl, rfl, rfl⟩

/-- On P-256, `G + G` and `2 G` in projective form are computed with the announced number of products. -/
example : ((wG.addF wG).ops.count .mul, wG.coreDoublingF.ops.count .mul, (wG.mulF .debug ⟨5, p256.r⟩).ops.count .mul) = (24, 23, 124) := by
  decide +kernel

example := C108_weierstrass_cost .debug p256_p (by decide +kernel) wG wG_over ⟨5, p256.r⟩ (by decide) (by decide +kernel)
  (okGet (Weierstrass.Point.mul .debug wG ⟨5, p256.r⟩) (by decide +kernel)) (okGet_eq (Weierstrass.Point.mul .debug wG ⟨5, p256.r⟩) (by decide +kernel))

example := C108_weierstrass_mul .debug p256_p p256_p (by decide +kernel) (by decide +kernel) wG wH wG_over wH_over ⟨5, p256.r⟩ ⟨5, p256.r⟩ (by decide) (by decide +kernel) rfl
  (okGet (Weierstrass.Point.mul .debug wG ⟨5, p256.r⟩) (by decide +kernel)) (okGet (Weierstrass.Point.mul .debug wH ⟨5, p256.r⟩) (by decide +kernel))
  (okGet_eq (Weierstrass.Point.mul .debug wG ⟨5, p256.r⟩) (by decide +kernel)) (okGet_eq (Weierstrass.Point.mul .debug wH ⟨5, p256.r⟩) (by decide +kernel))

example := C108_montgomery_cost .debug curve25519_p (by decide +kernel) mG mG_over ⟨5, curve25519.r⟩ (by decide) (by decide +kernel)
  (okGet (Montgomery.Point.mul .debug mG ⟨5, curve25519.r⟩) (by decide +kernel)) (okGet_eq (Montgomery.Point.mul .debug mG ⟨5, curve25519.r⟩) (by decide +kernel))

example := C108_montgomery_mul .debug curve25519_p curve25519_p (by decide +kernel) (by decide +kernel) mG mH mG_over mH_over ⟨5, curve25519.r⟩ ⟨5, curve25519.r⟩ (by decide) (by decide +kernel) rfl
  (okGet (Montgomery.Point.mul .debug mG ⟨5, curve25519.r⟩) (by decide +kernel)) (okGet (Montgomery.Point.mul .debug mH ⟨5, curve25519.r⟩) (by decide +kernel))
  (okGet_eq (Montgomery.Point.mul .debug mG ⟨5, curve25519.r⟩) (by decide +kernel)) (okGet_eq (Montgomery.Point.mul .debug mH ⟨5, curve25519.r⟩) (by decide +kernel))

example := C108_edwards_cost .debug curve25519_p (by decide +kernel) eG eG_over ⟨5, edwards25519.r⟩ (by decide) (by decide +kernel)
  (okGet (Edwards.Point.mul .debug eG ⟨5, edwards25519.r⟩) (by decide +kernel)) (okGet_eq (Edwards.Point.mul .debug eG ⟨5, edwards25519.r⟩) (by decide +kernel))

example := C108_edwards_mul .debug curve25519_p curve25519_p (by decide +kernel) (by decide +kernel) eG eH eG_over eH_over ⟨5, edwards25519.r⟩ ⟨5, edwards25519.r⟩ (by decide) (by decide +kernel) rfl
  (okGet (Edwards.Point.mul .debug eG ⟨5, edwards25519.r⟩) (by decide +kernel)) (okGet (Edwards.Point.mul .debug eH ⟨5, edwards25519.r⟩) (by decide +kernel))
  (okGet_eq (Edwards.Point.mul .debug eG ⟨5, edwards25519.r⟩) (by decide +kernel)) (okGet_eq (Edwards.Point.mul .debug eH ⟨5, edwards25519.r⟩) (by decide +kernel))

/-- SSWU and SVDW on P-256: the hypotheses of `C109_sswu` and `C109_svdw` are met. -/
example : WCurveOver p256_p p256 ∧ 3 ≤ p256_p ∧ p256_p % 4 = 3 ∧
    ((Weierstrass.SSWU.new p256 ⟨p256_p - 10, ⟨p256_p⟩⟩).bind fun m => R.ok (m.mapF ⟨7, ⟨p256_p⟩⟩).ops.length) = R.ok 29 ∧
    ((Weierstrass.SVDW.new p256 ⟨p256_p - 3, ⟨p256_p⟩⟩).bind fun m => R.ok (m.mapF ⟨7, ⟨p256_p⟩⟩).ops.length) = R.ok 45 :=
  ⟨⟨rfl, rfl, rfl⟩, by decide +kernel, by decide +kernel, by decide +kernel, by decide +kernel⟩

/-- Elligator 2 on CURVE25519: the hypotheses of `C109_ell2` are met. -/
example : MCurveOver curve25519_p curve25519 ∧ 3 ≤ curve25519_p ∧ curve25519_p % 8 = 5 ∧
    ((Montgomery.Ell2.new curve25519 ⟨2, ⟨curve25519_p⟩⟩).bind fun m => R.ok (m.mapF ⟨7, ⟨curve25519_p⟩⟩).ops.length) = R.ok 44 :=
  ⟨⟨rfl, rfl, rfl, rfl⟩, by decide +kernel, by decide +kernel, by decide +kernel⟩

/-- The isogeny of SECP256K1: the hypotheses of `C109_sswuab0` are met. -/
example : (∀ iso, get_isogeny_secp256k1 = R.ok iso → IsoOver secp256k1_p iso) ∧
    (do
      let iso ← get_isogeny_secp256k1
      let m ← Weierstrass.SSWU.new iso.e0 ⟨secp256k1_p - 11, ⟨secp256k1_p⟩⟩
      let P ← Weierstrass.SSWUAB0.map ⟨iso.toIsogeny, m⟩ ⟨7, ⟨secp256k1_p⟩⟩
      P.e.isOnCurve P) = R.ok true := by
  refine ⟨fun iso h => ?_, by decide +kernel⟩
  have : (get_isogeny_secp256k1.bind fun iso => R.ok (decide (iso.e0.f = ⟨secp256k1_p⟩ ∧ iso.e0.a.f = ⟨secp256k1_p⟩ ∧ iso.e0.b.f = ⟨secp256k1_p⟩ ∧
      iso.e1.f = ⟨secp256k1_p⟩ ∧ iso.e1.a.f = ⟨secp256k1_p⟩ ∧ iso.e1.b.f = ⟨secp256k1_p⟩ ∧
      ∀ c ∈ iso.x_num ++ iso.x_den ++ iso.y_num ++ iso.y_den, c.f = ⟨secp256k1_p⟩))) = R.ok true := by decide +kernel
  rw [h] at this
  have h' := of_decide_eq_true (R.ok.inj this)
  exact ⟨⟨h'.1, h'.2.1, h'.2.2.1⟩, ⟨h'.2.2.2.1, h'.2.2.2.2.1, h'.2.2.2.2.2.1⟩, h'.2.2.2.2.2.2⟩

/-- The maps to edwards25519 and edwards448: the hypotheses of `C109_edwards25519_partial`, `C109_named25519_partial` and `C109_edwards448` are met. -/
example : ECurveOver curve25519_p edwards25519 ∧ MCurveOver curve25519_p curve25519 ∧ ECurveOver curve448_p edwards448 ∧ MCurveOver curve448_p curve448 ∧
    (do
      let m ← Montgomery.Ell2.new curve25519 ⟨2, ⟨curve25519_p⟩⟩
      let Q ← m.map ⟨7, ⟨curve25519_p⟩⟩
      return decide (Q.c.y.n ≠ 0)) = R.ok true ∧
    (do
      let r ← edwards448_to_curve448
      let m ← Montgomery.Ell2.new r.e1 ⟨curve448_p - 1, ⟨curve448_p⟩⟩
      let P ← Edwards.Ell2.map ⟨r.toRationalMap, m⟩ ⟨7, ⟨curve448_p⟩⟩
      return ((Edwards.Ell2.mapF448 r m ⟨7, ⟨curve448_p⟩⟩).ops.length, P.isZero)) = R.ok (92, false) :=
  ⟨⟨rfl, rfl, rfl⟩, ⟨rfl, rfl, rfl, rfl⟩, ⟨rfl, rfl, rfl⟩, ⟨rfl, rfl, rfl, rfl⟩, by decide +kernel, by decide +kernel⟩

/-- P-256: the hypotheses of `C114_weierstrass` are met by the first coordinate of the generator; the two compressed encodings differ by one operation. -/
example : WCurveOver p256_p p256 ∧ 3 ≤ p256_p ∧ p256_p % 4 = 3 ∧
    (do
      let bs ← wG.encode true
      let cs ← wG.encode false
      return (decide ((bs.drop 1).length = p256.f.sizeBytes ∧ beValue (bs.drop 1) < p256_p ∧ beValue (cs.drop 33) < p256_p),
        (p256.decodeF (2 :: bs.drop 1)).ops.length, (p256.decodeF (3 :: bs.drop 1)).ops.length, (p256.decodeF cs).ops.length)) = R.ok (true, 18, 17, 13) :=
  ⟨⟨rfl, rfl, rfl⟩, by decide +kernel, by decide +kernel, by decide +kernel⟩

/-- P-256: there is no point with first coordinate 1, and the operations are the same. -/
example : (p256.decode (2 :: (List.replicate 31 0 ++ [1])), (p256.decodeF (2 :: (List.replicate 31 0 ++ [1]))).ops.length,
    (p256.decodeF (3 :: (List.replicate 31 0 ++ [1]))).ops.length) = (R.panic .notValidPoint, 18, 17) := by decide +kernel

/-- CURVE25519: the hypotheses of `C114_montgomery` are met. -/
example : MCurveOver curve25519_p curve25519 ∧ 3 ≤ curve25519_p ∧ curve25519_p % 8 = 5 ∧
    (do
      let bs ← mG.encode true
      let cs ← mG.encode false
      return (decide ((bs.drop 1).length = curve25519.f.sizeBytes ∧ beValue (bs.drop 1) < curve25519_p ∧ beValue (cs.drop 33) < curve25519_p),
        (curve25519.decodeF (2 :: bs.drop 1)).ops.length, (curve25519.decodeF (3 :: bs.drop 1)).ops.length, (curve25519.decodeF cs).ops.length)) =
      R.ok (true, 34, 33, 14) :=
  ⟨⟨rfl, rfl, rfl, rfl⟩, by decide +kernel, by decide +kernel, by decide +kernel⟩

/-- EDWARDS25519: the hypotheses of `C114_edwards` are met by the second coordinate of the generator, and by 1, with which the third case occurs. -/
example : ECurveOver curve25519_p edwards25519 ∧ 3 ≤ curve25519_p ∧ curve25519_p % 8 = 5 ∧
    (do
      let bs ← eG.encode true
      return (decide (bs.length = 32 ∧ 8 * 32 ≥ Big.bits curve25519_p + 1 ∧ 8 * 31 < Big.bits curve25519_p + 1 ∧ bs.getLast? = some 102 ∧
          Ed.leValue bs < curve25519_p),
        (edwards25519.decodeF bs).ops.length, (edwards25519.decodeF (bs.take 31 ++ [102 + 128])).ops.length)) = R.ok (true, 37, 36) ∧
    (edwards25519.decodeF (1 :: (List.replicate 30 0 ++ [0]))).ops.length = 36 ∧
    ((edwards25519.decodeF (1 :: (List.replicate 30 0 ++ [128]))).ops.length, edwards25519.decode (1 :: (List.replicate 30 0 ++ [128]))) =
      (22, R.ok (.error .sqrtFailed)) :=
  ⟨⟨rfl, rfl, rfl⟩, by decide +kernel, by decide +kernel, by decide +kernel, by decide +kernel, by decide +kernel⟩

/-- C114: an encoding of the identity calls the same operations as any other. -/
example : ((p256.identity.bind fun P => R.ok ((P.encodeF true).ops, P.encode true)) = R.ok ((wG.encodeF true).ops, R.ok (2 :: List.replicate 32 0))) := by decide +kernel

end Redox.Witness
