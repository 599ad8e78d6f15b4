import Verif.Props.Opposite
import Verif.Witness.Received

/-!
# C117 at concrete points
-/

set_option maxRecDepth 100000

namespace Redox.Witness

open Redox Redox.Spec Redox.Props Redox.Inst Redox.Props.Inst

example := C117_weierstrass_decode _ _ p256_valid.curve p256_valid.complete (by decide +kernel) 3 2 (Or.inr rfl) (Or.inl rfl) (by decide) wIn.tail _
  (unwrap_eq_ok.1 (okGet_eq _ (by decide +kernel : (Flow.unwrap (p256.decode (3 :: wIn.tail))).isOk = true)))

example := C117_montgomery_decode _ _ curve25519_valid.curve curve25519_valid.b_one (by decide +kernel) 2 3 (Or.inl rfl) (Or.inr rfl) (by decide) mIn.tail _
  (unwrap_eq_ok.1 (okGet_eq _ (by decide +kernel : (Flow.unwrap (curve25519.decode (2 :: mIn.tail))).isOk = true)))

/-- The point of order two is its own opposite: both tags are read. -/
example := C117_montgomery_decode _ _ curve25519_valid.curve curve25519_valid.b_one (by decide +kernel) 2 3 (Or.inl rfl) (Or.inr rfl) (by decide)
  (List.replicate 32 0) _
  (unwrap_eq_ok.1 (okGet_eq _ (by decide +kernel : (Flow.unwrap (curve25519.decode (2 :: List.replicate 32 0))).isOk = true)))

/-- The generator of edwards25519. -/
def eOpp : List Byte := 88 :: List.replicate 30 102

theorem eOpp_read : ∃ P, edwards25519.decode (eOpp ++ [102]) = R.ok (.ok P) ∧ val curve25519_p P.c.x ≠ 0 := by
  refine ⟨_, unwrap_eq_ok.1 (okGet_eq _ (by decide +kernel : (Flow.unwrap (edwards25519.decode (eOpp ++ [102]))).isOk = true)), ?_⟩
  rw [Ne, ← Int.cast_zero (R := ZMod curve25519_p), val, ZMod.intCast_eq_intCast_iff_dvd_sub]
  decide +kernel

example := (C117_edwards_decode curve25519_p edwards25519 (by decide +kernel) eOpp 102 _ eOpp_read.choose_spec.1).1 eOpp_read.choose_spec.2

/-- The identity of edwards25519, `x = 0`: with the top bit set the string is refused. -/
def eOne : List Byte := 1 :: List.replicate 30 0

theorem eOne_read : ∃ P, edwards25519.decode (eOne ++ [0]) = R.ok (.ok P) ∧ val curve25519_p P.c.x = 0 := by
  refine ⟨_, unwrap_eq_ok.1 (okGet_eq _ (by decide +kernel : (Flow.unwrap (edwards25519.decode (eOne ++ [0]))).isOk = true)), ?_⟩
  rw [← Int.cast_zero (R := ZMod curve25519_p), val, ZMod.intCast_eq_intCast_iff_dvd_sub]
  decide +kernel

example := (C117_edwards_decode curve25519_p edwards25519 (by decide +kernel) eOne 0 _ eOne_read.choose_spec.1).2 eOne_read.choose_spec.2

example := C117_weierstrass_encode _ _ p256_valid.curve wG wH _ _ wG_den wH_den wg_ne wh_ne
example := C117_montgomery_encode _ _ curve25519_valid.curve mG mH _ _ mG_den mH_den mg_ne mh_ne

example := C117_edwards_encode curve25519_p edwards25519 (by decide +kernel) eG eH _ _ eG_den eH_den true false

end Redox.Witness
