import Verif.Props.Batch
import Verif.Witness.Base

/-!
# C107 at concrete signatures

The key of the first signature is the generator and its nonce point the double; the second has them exchanged.
-/

set_option maxRecDepth 100000

namespace Redox.Witness

open Redox Redox.Spec Redox.Props Redox.Inst Redox.Props.Inst Redox.Props.Threshold

def bat {P : Type} (G H : P) (z : ℤ) : List (BatchItem P) := [⟨z, 5, 3, G, H⟩, ⟨11, 9, 4, H, G⟩]

theorem bat_nonzero {P : Type} (G H : P) (r : ℕ) (hr : 200 < r) (z : ℤ) (hz : z = 7 ∨ z = 8) : BatchNonzero r (bat G H z) := by
  have nd : ∀ n : ℤ, 0 < n → n < 200 → ¬ (r : ℤ) ∣ n := fun n h1 h2 hd => by
    have := Int.le_of_dvd h1 hd
    omega
  rcases hz with rfl | rfl
  all_goals
    refine ⟨nd _ (by simp [bat, batchScalar]) (by simp [bat, batchScalar]), ?_⟩
    simp only [bat, List.forall_mem_cons]
    exact ⟨⟨nd _ (by norm_num) (by norm_num), nd _ (by norm_num) (by norm_num)⟩, ⟨nd _ (by norm_num) (by norm_num), nd _ (by norm_num) (by norm_num)⟩, by simp⟩

theorem bat_right {G : Type} [AddCommGroup G] (g : G) : (5 : ℤ) • g = (g + g) + (3 : ℤ) • g ∧ (9 : ℤ) • g = g + (4 : ℤ) • (g + g) := by
  constructor <;> abel

example : wBatch .debug p256 (((⟨7, 5, 3, wG, wH⟩, wg, wg + wg) :: [(⟨11, 9, 4, wH, wG⟩, wg + wg, wg)]).map (·.1)) = R.ok true :=
  (@C107_weierstrass p256_p _ p256 (by meets) .debug wG wg wG_eq wG_den ((⟨7, 5, 3, wG, wH⟩, wg, wg + wg) :: [(⟨11, 9, 4, wH, wG⟩, wg + wg, wg)])
    (by simp [wG_den, wH_den, wg_kill, wh_kill]) (Or.inl (bat_nonzero wG wH _ (by decide +kernel) 7 (Or.inl rfl)))).2
    (by simp only [List.forall_mem_cons]; exact ⟨(bat_right _).1, (bat_right _).2, by simp⟩)

example := @C107_weierstrass_sound p256_p _ p256 (by meets) .debug wG wg wG_eq wG_den [] [(⟨11, 9, 4, wH, wG⟩, wg + wg, wg)] ⟨7, 5, 3, wG, wH⟩ wg (wg + wg) 8
  (by simp [wG_den, wH_den, wg_kill, wh_kill])
  (Or.inl ⟨bat_nonzero wG wH _ (by decide +kernel) 7 (Or.inl rfl), bat_nonzero wG wH _ (by decide +kernel) 8 (Or.inr rfl)⟩)
  (not_dvd_of (by decide +kernel)) (by decide +kernel) (by decide +kernel)

/-- With a wrong response the batch is rejected. -/
example : wBatch .debug p256 [⟨7, 5, 3, wG, wH⟩, ⟨11, 8, 4, wH, wG⟩] = R.ok false := by decide +kernel

example := @C107_montgomery curve25519_p _ curve25519 (by meets) .debug mG mg mG_eq mG_den ((⟨7, 5, 3, mG, mH⟩, mg, mg + mg) :: [(⟨11, 9, 4, mH, mG⟩, mg + mg, mg)])
    (by simp [mG_den, mH_den, mg_kill, mh_kill]) (Or.inl (bat_nonzero mG mH _ (by decide +kernel) 7 (Or.inl rfl)))

example := @C107_montgomery_sound curve25519_p _ curve25519 (by meets) .debug mG mg mG_eq mG_den [] [(⟨11, 9, 4, mH, mG⟩, mg + mg, mg)] ⟨7, 5, 3, mG, mH⟩ mg
  (mg + mg) 8 (by simp [mG_den, mH_den, mg_kill, mh_kill])
  (Or.inl ⟨bat_nonzero mG mH _ (by decide +kernel) 7 (Or.inl rfl), bat_nonzero mG mH _ (by decide +kernel) 8 (Or.inr rfl)⟩)
  (not_dvd_of (by decide +kernel)) (by decide +kernel) (by decide +kernel)

example := @C107_edwards curve25519_p _ edwards25519 (by meets) _ .debug eG eg eG_eq eG_den ((⟨7, 5, 3, eG, eH⟩, eg, eg + eg) :: [(⟨11, 9, 4, eH, eG⟩, eg + eg, eg)])
    (by simp [eG_den, eH_den, eg_kill]) (Or.inl (bat_nonzero eG eH _ (by decide +kernel) 7 (Or.inl rfl)))

example := @C107_edwards_sound curve25519_p _ edwards25519 (by meets) _ .debug eG eg eG_eq eG_den [] [(⟨11, 9, 4, eH, eG⟩, eg + eg, eg)] ⟨7, 5, 3, eG, eH⟩ eg
  (eg + eg) 8 (by simp [eG_den, eH_den, eg_kill])
  (Or.inl ⟨bat_nonzero eG eH _ (by decide +kernel) 7 (Or.inl rfl), bat_nonzero eG eH _ (by decide +kernel) 8 (Or.inr rfl)⟩)
  (not_dvd_of (by decide +kernel)) (by decide +kernel) (by decide +kernel)

example := @C107_edwards_torsion curve25519_p _ edwards25519 (by meets) _ (by decide +kernel) .debug eG eg eG_eq eG_den eG eH eg (eg + eg) eG_den eH_den eg_kill 5 3
  (bat_right _).1 (Or.inl ⟨not_dvd_of (by decide +kernel), not_dvd_of (by decide +kernel)⟩)

end Redox.Witness
