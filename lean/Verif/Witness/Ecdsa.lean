import Verif.Props.Ecdsa
import Verif.Witness.Base

/-!
# C115 at concrete values

The key, nonce and message are those of RFC 6979, A.2.5 (P-256, SHA-256, message "sample"); so are the expected numbers.
-/

set_option maxRecDepth 100000

namespace Redox.Witness

open Redox Redox.Spec Redox.Props Redox.Inst Redox.Props.Inst Redox.Props.Ecdsa

def ecD : ℤ := 0xC9AFA9D845BA75166B5C215767B1D6934E50C3DB36E89B127B8A622B120F6721

def ecK : ℤ := 0xA6E3C57DD01ABE90086538398355DD4C3B17AA873382B0F24D6129493D8AAD60

def ecZ : ℤ := 0xAF2BDBE1AA9B6EC1E2ADE1D694F41FC71A831D0268E9891562113D8A62ADD1BF

def ecR : List Byte := [239, 212, 139, 42, 172, 182, 168, 253, 17, 64, 221, 156, 212, 94, 129, 214, 157, 44, 135, 123, 86, 170, 249, 145, 195, 77, 14, 168, 78, 175, 55, 22]

def ecS : List Byte := [247, 203, 28, 148, 45, 101, 124, 65, 212, 54, 199, 161, 182, 226, 159, 101, 243, 233, 0, 219, 185, 175, 244, 6, 77, 196, 171, 47, 132, 58, 205, 168]

theorem ec_sign : ecSign .debug p256 ecD ecK ecZ = R.ok (ecR, ecS) := by decide +kernel

/-- The public key, with the coordinates of the RFC. -/
def ecQ : Weierstrass.Point := ⟨p256, ⟨⟨0x60FED4BA255A9D31C961EB74C6356D68C049B8923B61FA6CE669622E60F29FB6, ⟨p256_p⟩⟩,
  ⟨0x7903FE1008B8BC99A41AE9E95628BC64F2F1B20C2D7E9F5177A3C294D4462299, ⟨p256_p⟩⟩, ⟨1, ⟨p256_p⟩⟩⟩⟩

theorem ecQ_eq : (do (← wG.mul .debug (← p256.newScalar ecD)).eq ecQ) = R.ok true := by decide +kernel

theorem ecQ_den : WDenotes p256_p p256 ecQ (ecD • wg) := by
  obtain ⟨A, hA⟩ : ∃ A, WDenotes p256_p p256 ecQ A :=
    (C22_points p256_p p256 p256_valid.curve ecQ (by decide +kernel) ⟨by decide +kernel, by decide +kernel, by decide +kernel⟩
      ⟨by decide +kernel, by decide +kernel, by decide +kernel⟩ ⟨by decide +kernel, by decide +kernel, by decide +kernel⟩).2
      ⟨by decide +kernel, by decide +kernel⟩
  obtain ⟨s, S, hs, hS, dS⟩ := Commit.w_mul p256_p p256 (by meets) .debug wG_den wg_kill_r ecD (Or.inl (not_dvd_of (by decide +kernel)))
  have h := ecQ_eq
  rw [hs, R.ok_bind, hS, R.ok_bind, C27_eq p256_p p256 _ _ _ _ dS hA, R.ok.injEq, decide_eq_true_iff] at h
  rwa [h]

theorem ecQ_kill : p256.getOrder • (ecD • wg) = 0 := by rw [smul_comm, wg_kill, zsmul_zero]

example : ecVerify .debug p256 ecQ ecZ ecR ecS = R.ok true := by decide +kernel

example := @C115_sign p256_p _ p256 (by meets) (by decide +kernel) .debug wG wg wG_eq wG_den ecD ecK ecZ (not_dvd_of (by decide +kernel))

example := @C115_verify p256_p _ p256 (by meets) (by decide +kernel) .debug wG ecQ wg (ecD • wg) wG_eq wG_den ecQ_den ecQ_kill ecZ
  (Or.inl (not_dvd_of (by decide +kernel))) ecR ecS

/-- The other `s` of the signature. -/
def ecS' : List Byte := Big.toBytesBE (p256.getOrder - beValue ecS)

example := @C115_malleable p256_p _ p256 (by meets) (by decide +kernel) .debug ecQ (ecD • wg) ecQ_den ecQ_kill ecZ
  (Or.inl (not_dvd_of (by decide +kernel))) ecR ecS ecS' (by decide +kernel)

example := @C115_nonce_reuse p256_p _ p256 (by meets) (by decide +kernel) .debug ecD ecK ecZ 5 (not_dvd_of (by decide +kernel)) (not_dvd_of (by decide +kernel))

/-- The first coordinate of the generator. -/
def ecX : List Byte := [107, 23, 209, 242, 225, 44, 66, 71, 248, 188, 230, 229, 99, 164, 64, 242, 119, 3, 125, 129, 45, 235, 51, 160, 244, 161, 57, 69, 216, 152, 194, 150]

theorem wg_first : first p256_p p256 wg = beValue ecX := by
  have h1 := wFirst_eq p256_p p256 p256_valid.curve wG_den
  rw [show wFirst wG = R.ok (beValue ecX : ℤ) by decide +kernel, R.ok.injEq] at h1
  exact_mod_cast h1.symm

example := @C115_recover p256_p _ p256 (by meets) (by decide +kernel) (by decide +kernel) .debug wg wg_kill ecZ (Or.inl (not_dvd_of (by decide +kernel))) ecX ecS
  (by decide +kernel) wg_first (by decide +kernel) (by decide +kernel) 3 (by decide)

/-- The message representative for which `s = 1` is valid with the nonce one and the secret one. -/
def ecZ1 : ℤ := 1 - beValue ecX

example := @C115_recover_all p256_p _ p256 (by meets) (by decide +kernel) (by decide +kernel) .debug wG wG wg wg wG_eq wG_den wG_den wg_kill ecZ1
  (Or.inl (not_dvd_of (by decide +kernel))) ecX [1] (by decide +kernel) (by decide +kernel) (by decide +kernel) 1 (by decide +kernel)
  (by rw [← add_zsmul, ecZ1, sub_add_cancel, one_zsmul, one_zsmul, wg_first])

end Redox.Witness
