import Verif.Props.Sign
import Verif.Witness.Base

/-!
# C112 at concrete values

The hash function adds up the bytes and one.
-/

set_option maxRecDepth 100000

namespace Redox.Witness

open Redox Redox.Spec Redox.Props Redox.Inst Redox.Props.Inst Redox.Props.Sign

/-- A hash function. -/
def sumHash (bs : List Byte) : ℤ := bs.foldl (fun a b => a + b.toNat) 1

example := @C112_weierstrass p256_p _ p256 (by meets) (by decide +kernel) .debug sumHash true 5 6 (not_dvd_of (by decide +kernel)) (not_dvd_of (by decide +kernel)) [104, 105]

def wSig : List Byte × List Byte × List Byte := okGet (wSign .debug p256 sumHash true 5 6 [104, 105]) (by decide +kernel)

theorem wSig_eq : wSign .debug p256 sumHash true 5 6 [104, 105] = R.ok (wSig.1, wSig.2.1, wSig.2.2) := okGet_eq _ (by decide +kernel)

example := @C112_weierstrass_accepts p256_p _ p256 (by meets) (by decide +kernel) .debug sumHash true 5 6 (not_dvd_of (by decide +kernel)) (not_dvd_of (by decide +kernel))
  [104, 105] wSig.1 wSig.2.1 wSig.2.2 wSig_eq (Or.inl ⟨not_dvd_of (by decide +kernel), not_dvd_of (by decide +kernel)⟩)

/-- Another message is rejected. -/
example : wVerify .debug p256 sumHash [104, 106] wSig.1 wSig.2.1 wSig.2.2 = R.ok false := by decide +kernel

example := @C112_montgomery curve25519_p _ curve25519 (by meets) (by decide +kernel) .debug sumHash true 5 6 (not_dvd_of (by decide +kernel)) (not_dvd_of (by decide +kernel)) [104, 105]

def mSig : List Byte × List Byte × List Byte := okGet (mSign .debug curve25519 sumHash true 5 6 [104, 105]) (by decide +kernel)

theorem mSig_eq : mSign .debug curve25519 sumHash true 5 6 [104, 105] = R.ok (mSig.1, mSig.2.1, mSig.2.2) := okGet_eq _ (by decide +kernel)

example := @C112_montgomery_accepts curve25519_p _ curve25519 (by meets) (by decide +kernel) .debug sumHash true 5 6 (not_dvd_of (by decide +kernel)) (not_dvd_of (by decide +kernel))
  [104, 105] mSig.1 mSig.2.1 mSig.2.2 mSig_eq (Or.inl ⟨not_dvd_of (by decide +kernel), not_dvd_of (by decide +kernel)⟩)

/-- Another message is rejected. -/
example : mVerify .debug curve25519 sumHash [104, 106] mSig.1 mSig.2.1 mSig.2.2 = R.ok false := by decide +kernel

example := @C112_edwards curve25519_p _ edwards25519 (by meets) _ (by decide +kernel) .debug sumHash true 5 6 (not_dvd_of (by decide +kernel)) (not_dvd_of (by decide +kernel)) [104, 105]

def eSig : List Byte × List Byte × List Byte := okGet (eSign .debug edwards25519 sumHash true 5 6 [104, 105]) (by decide +kernel)

theorem eSig_eq : eSign .debug edwards25519 sumHash true 5 6 [104, 105] = R.ok (eSig.1, eSig.2.1, eSig.2.2) := okGet_eq _ (by decide +kernel)

example := @C112_edwards_accepts curve25519_p _ edwards25519 (by meets) _ (by decide +kernel) .debug sumHash true 5 6 (not_dvd_of (by decide +kernel)) (not_dvd_of (by decide +kernel))
  [104, 105] eSig.1 eSig.2.1 eSig.2.2 eSig_eq (Or.inl ⟨not_dvd_of (by decide +kernel), not_dvd_of (by decide +kernel)⟩)

/-- Another message is rejected. -/
example : eVerify .debug edwards25519 sumHash [104, 106] eSig.1 eSig.2.1 eSig.2.2 = R.ok false := by decide +kernel

end Redox.Witness
