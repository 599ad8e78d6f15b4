import Verif.Props.SmallOrder
import Verif.Witness.Base

/-! Concrete uses of the theorems of `Verif.Props.SmallOrder`. -/

namespace Redox.Witness

open Redox Redox.Spec Redox.Props Redox.Inst Redox.Props.Inst

example := @C119_named_edwards _ (List.getElem_mem (l := edwardsList) (n := 0) (by decide))
example := @C119_named_edwards _ (List.getElem_mem (l := edwardsList) (n := 1) (by decide))
example := @C119_named_montgomery _ (List.getElem_mem (l := montgomeryList) (n := 0) (by decide))
example := @C119_named_montgomery _ (List.getElem_mem (l := montgomeryList) (n := 1) (by decide))
example := @C119_named_prime _ (List.getElem_mem (l := primeOrderList) (n := 0) (by decide))
example := @C119_named_weierstrass _ (List.getElem_mem (l := weierstrassList) (n := 5) (by decide))
example := C119_weierstrass p256_p p256 p256_valid (by decide +kernel)

/-- The string of the point `(0, -1)` of edwards25519, a point of order two. -/
def eTwo : List Byte := 0xec :: List.replicate 30 0xff ++ [0x7f]

/-- The string of the generator of edwards25519. -/
def eBase : List Byte := 0x58 :: List.replicate 31 0x66

/-- The test for small order is true at `(0, -1)` and false at the generator; for the test of C99 it is the other way round. -/
example : (do match ← edwards25519.decode eTwo with
    | .ok P => return (← eSmall .debug edwards25519 P, ← eMember .debug edwards25519 P)
    | .error _ => return (false, false)) = R.ok (true, false) := by decide +kernel

example : (do match ← edwards25519.decode eBase with
    | .ok P => return (← eSmall .debug edwards25519 P, ← eMember .debug edwards25519 P)
    | .error _ => return (false, false)) = R.ok (false, true) := by decide +kernel

/-- The string of the point `(0, 0)` of curve25519, a point of order two. -/
def mTwo : List Byte := 0x02 :: List.replicate 32 0x00

/-- The string of the generator of curve25519, in the short form. -/
def mBase : List Byte := 0x02 :: List.replicate 31 0x00 ++ [0x09]

example : (do match ← curve25519.decode mTwo with
    | .ok P => return (← mSmall .release curve25519 P, ← mMember .release curve25519 P)
    | .error _ => return (false, false)) = R.ok (true, false) := by decide +kernel

example : (do match ← curve25519.decode mBase with
    | .ok P => return (← mSmall .release curve25519 P, ← mMember .release curve25519 P)
    | .error _ => return (false, false)) = R.ok (false, true) := by decide +kernel

/-- At the generator of P-256 the test for small order is false. -/
example : (do wSmall .debug p256 (← p256.getGenerator)) = R.ok false := by decide +kernel

end Redox.Witness
