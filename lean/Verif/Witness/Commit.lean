import Verif.Props.Commit
import Verif.Witness.Base

/-!
# C110 and C111 at concrete values

The second point is the double of the generator, so `7 G + 2 H = 3 G + 4 H`.
-/

set_option maxRecDepth 100000

namespace Redox.Witness

open Redox Redox.Spec Redox.Props Redox.Inst Redox.Props.Inst Redox.Props.Commit

theorem small_nd {l : List ℤ} (r : ℕ) (hr : 200 < r) (h : ∀ a ∈ l, 0 < a ∧ a < 200) : ∀ a ∈ l, ¬ (r : ℤ) ∣ a := fun a ha hd => by
  have := Int.le_of_dvd (h a ha).1 hd
  have := (h a ha).2
  omega

theorem double_log {G : Type} [AddCommGroup G] (g : G) : g + g = (2 : ℤ) • g := (two_zsmul g).symm

example := @C110_weierstrass p256_p _ p256 (by meets) .debug wG wH wg (wg + wg) wG_eq wG_den wH_den wh_kill 7 2 3 4
  (Or.inl (small_nd _ (by decide +kernel) (by decide)))

example := @C110_weierstrass_binding p256_p _ p256 (by meets) (by decide +kernel) .debug wG wH wg (wg + wg) wG_eq wG_den wH_den wh_kill 7 2 3 4
  (Or.inl (small_nd _ (by decide +kernel) (by decide))) (not_dvd_of (by decide +kernel)) (by decide +kernel)

example := @C110_weierstrass_hiding p256_p _ p256 (by meets) wG wH wg (wg + wg) wG_eq wG_den wH_den 2 (double_log wg) wh_ne 7 2 5

example := @C111_weierstrass p256_p _ p256 (by meets) .debug wH (wg + wg) wH_den 5 6 7
  (Or.inl (small_nd _ (by decide +kernel) (by decide)))

example := @C111_weierstrass_sum p256_p _ p256 (by meets) .debug wH wG (wg + wg) wg wH_den wG_den 5 6 7
  (Or.inl (small_nd _ (by decide +kernel) (by decide)))

example := @C110_montgomery curve25519_p _ curve25519 (by meets) .debug mG mH mg (mg + mg) mG_eq mG_den mH_den mh_kill 7 2 3 4
  (Or.inl (small_nd _ (by decide +kernel) (by decide)))

example := @C110_montgomery_binding curve25519_p _ curve25519 (by meets) (by decide +kernel) .debug mG mH mg (mg + mg) mG_eq mG_den mH_den mh_kill 7 2 3 4
  (Or.inl (small_nd _ (by decide +kernel) (by decide))) (not_dvd_of (by decide +kernel)) (by decide +kernel)

example := @C110_montgomery_hiding curve25519_p _ curve25519 (by meets) mG mH mg (mg + mg) mG_eq mG_den mH_den 2 (double_log mg) mh_ne 7 2 5

example := @C111_montgomery curve25519_p _ curve25519 (by meets) .debug mH (mg + mg) mH_den 5 6 7
  (Or.inl (small_nd _ (by decide +kernel) (by decide)))

example := @C111_montgomery_sum curve25519_p _ curve25519 (by meets) .debug mH mG (mg + mg) mg mH_den mG_den 5 6 7
  (Or.inl (small_nd _ (by decide +kernel) (by decide)))

example := @C110_edwards curve25519_p _ edwards25519 (by meets) _ .debug eG eH eg (eg + eg) eG_eq eG_den eH_den eh_kill 7 2 3 4
  (Or.inl (small_nd _ (by decide +kernel) (by decide)))

example := @C110_edwards_binding curve25519_p _ edwards25519 (by meets) _ (by decide +kernel) .debug eG eH eg (eg + eg) eG_eq eG_den eH_den eh_kill 7 2 3 4
  (Or.inl (small_nd _ (by decide +kernel) (by decide))) (not_dvd_of (by decide +kernel)) (by decide +kernel)

example := @C110_edwards_hiding curve25519_p _ edwards25519 (by meets) _ eG eH eg (eg + eg) eG_eq eG_den eH_den 2 (double_log eg) eh_ne 7 2 5

example := @C111_edwards curve25519_p _ edwards25519 (by meets) _ .debug eH (eg + eg) eH_den 5 6 7
  (Or.inl (small_nd _ (by decide +kernel) (by decide)))

example := @C111_edwards_sum curve25519_p _ edwards25519 (by meets) _ .debug eH eG (eg + eg) eg eH_den eG_den 5 6 7
  (Or.inl (small_nd _ (by decide +kernel) (by decide)))

end Redox.Witness
