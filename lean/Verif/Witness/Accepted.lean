import Verif.Props.Accepted

/-! Concrete uses of the theorems of `Verif.Props.Accepted`. -/

namespace Redox.Witness

open Redox Redox.Spec Redox.Props Redox.Inst Redox.Props.Inst

example := C106_weierstrass p256_p p256 p256_valid.curve p256_valid.complete (by decide +kernel)
example := C106_weierstrass secp256k1_p secp256k1 secp256k1_valid.curve secp256k1_valid.complete (by decide +kernel)
example := C106_montgomery curve25519_p curve25519 curve25519_valid.curve curve25519_valid.b_one (by decide +kernel)
example := C106_montgomery curve448_p curve448 curve448_valid.curve curve448_valid.b_one (by decide +kernel)
example := @C106_edwards curve25519_p _ edwards25519 edwards25519_valid.curve (by decide +kernel)
example := @C106_edwards curve448_p _ edwards448 edwards448_valid.curve (by decide +kernel)
example := @C106_named_prime _ (List.getElem_mem (l := primeOrderList) (n := 0) (by decide))
example := @C106_named_montgomery _ (List.getElem_mem (l := montgomeryList) (n := 0) (by decide))
example := @C106_named_edwards _ (List.getElem_mem (l := edwardsList) (n := 1) (by decide))

/-- For P-256, the 33-byte strings accepted are one fewer than the order of the generator. -/
example : Nat.card {buf : List Byte // buf.length = 33 ∧ ∃ P, p256.decode buf = R.ok (.ok P)} =
    0xffffffff00000000ffffffffffffffffbce6faada7179e84f3b9cac2fc632550 := by
  have h := (C106_weierstrass p256_p p256 p256_valid.curve p256_valid.complete (by decide +kernel)).1
  rw [card_of_valid p256_valid (by decide +kernel)] at h
  have h32 : p256.f.sizeBytes = 32 := by decide +kernel
  have hr : p256.r = 0xffffffff00000000ffffffffffffffffbce6faada7179e84f3b9cac2fc632551 := by decide +kernel
  rw [h32, hr] at h
  exact Nat.add_right_cancel (m := 1) h

end Redox.Witness
