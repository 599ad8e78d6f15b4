import Verif.Props.Pok
import Verif.Witness.Feldman

/-!
# C118 at concrete values

Base `G`, key `2 G`, commitment `2 G`; the answer to the challenge `c` is `2 + 2 c`.
-/

set_option maxRecDepth 100000

namespace Redox.Witness

open Redox Redox.Spec Redox.Props Redox.Inst Redox.Props.Inst Redox.Props.Pok

theorem w_pok (c s : ℤ) (h : s = 2 + 2 * c) (h0 : c % (p256.getOrder : ℤ) ≠ 0 ∧ s % (p256.getOrder : ℤ) ≠ 0) : wPok .debug p256 wG wH wH c s = R.ok true := by
  rw [@C118_weierstrass p256_p _ p256 (by meets) .debug wG wH wH _ _ _ wG_den wH_den wH_den (by meets) (by meets) c s
    (Or.inl ⟨not_dvd_of h0.1, not_dvd_of h0.2⟩), R.ok.injEq, decide_eq_true_iff, h]
  rw [← two_zsmul, ← mul_zsmul, ← add_zsmul]
  congr 1
  ring

example := @C118_weierstrass_sound p256_p _ p256 (by meets) (by decide +kernel) .debug wG wH wH _ _ _ wG_den wH_den wH_den (by meets) (by meets) 5 12 7 16
  (not_dvd_of (by decide +kernel)) (Or.inl (not_dvd_list (by decide +kernel))) (w_pok 5 12 (by decide) (by decide +kernel)) (w_pok 7 16 (by decide) (by decide +kernel))

example : wPok .debug p256 wG wH wH 5 13 = R.ok false := by decide +kernel

example := @C118_weierstrass_simulate p256_p _ p256 (by meets) .debug wG wH _ _ wG_den wH_den (by meets) (by meets) 5 12
  (Or.inl ⟨not_dvd_of (by decide +kernel), not_dvd_of (by decide +kernel)⟩)

theorem m_pok (c s : ℤ) (h : s = 2 + 2 * c) (h0 : c % (curve25519.getOrder : ℤ) ≠ 0 ∧ s % (curve25519.getOrder : ℤ) ≠ 0) : mPok .debug curve25519 mG mH mH c s = R.ok true := by
  rw [@C118_montgomery curve25519_p _ curve25519 (by meets) .debug mG mH mH _ _ _ mG_den mH_den mH_den (by meets) (by meets) c s
    (Or.inl ⟨not_dvd_of h0.1, not_dvd_of h0.2⟩), R.ok.injEq, decide_eq_true_iff, h]
  rw [← two_zsmul, ← mul_zsmul, ← add_zsmul]
  congr 1
  ring

example := @C118_montgomery_sound curve25519_p _ curve25519 (by meets) (by decide +kernel) .debug mG mH mH _ _ _ mG_den mH_den mH_den (by meets) (by meets) 5 12 7 16
  (not_dvd_of (by decide +kernel)) (Or.inl (not_dvd_list (by decide +kernel))) (m_pok 5 12 (by decide) (by decide +kernel)) (m_pok 7 16 (by decide) (by decide +kernel))

example : mPok .debug curve25519 mG mH mH 5 13 = R.ok false := by decide +kernel

example := @C118_montgomery_simulate curve25519_p _ curve25519 (by meets) .debug mG mH _ _ mG_den mH_den (by meets) (by meets) 5 12
  (Or.inl ⟨not_dvd_of (by decide +kernel), not_dvd_of (by decide +kernel)⟩)

theorem e_pok (c s : ℤ) (h : s = 2 + 2 * c) (h0 : c % (edwards25519.getOrder : ℤ) ≠ 0 ∧ s % (edwards25519.getOrder : ℤ) ≠ 0) : ePok .debug edwards25519 eG eH eH c s = R.ok true := by
  rw [@C118_edwards curve25519_p _ edwards25519 (by meets) _ .debug eG eH eH _ _ _ eG_den eH_den eH_den (by meets) (by meets) c s
    (Or.inl ⟨not_dvd_of h0.1, not_dvd_of h0.2⟩), R.ok.injEq, decide_eq_true_iff, h]
  rw [← two_zsmul, ← mul_zsmul, ← add_zsmul]
  congr 1
  ring

example := @C118_edwards_sound curve25519_p _ edwards25519 (by meets) _ (by decide +kernel) .debug eG eH eH _ _ _ eG_den eH_den eH_den (by meets) (by meets) 5 12 7 16
  (not_dvd_of (by decide +kernel)) (Or.inl (not_dvd_list (by decide +kernel))) (e_pok 5 12 (by decide) (by decide +kernel)) (e_pok 7 16 (by decide) (by decide +kernel))

example : ePok .debug edwards25519 eG eH eH 5 13 = R.ok false := by decide +kernel

example := @C118_edwards_simulate curve25519_p _ edwards25519 (by meets) _ .debug eG eH _ _ eG_den eH_den (by meets) (by meets) 5 12
  (Or.inl ⟨not_dvd_of (by decide +kernel), not_dvd_of (by decide +kernel)⟩)

end Redox.Witness
