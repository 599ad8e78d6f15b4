import Verif.Props.Feldman
import Verif.Witness.Base

/-!
# C116 at concrete values

The polynomial is `7 + 2 X + 3 X²`; its values at 1, 2 and 4 are 12, 23 and 63.
-/

set_option maxRecDepth 100000

namespace Redox.Witness

open Redox Redox.Spec Redox.Props Redox.Inst Redox.Props.Inst Redox.Props.Feldman

theorem not_dvd_list {r : ℕ} {l : List ℤ} (h : ∀ k ∈ l, k % (r : ℤ) ≠ 0) : ∀ k ∈ l, ¬ (r : ℤ) ∣ k := fun k hk => not_dvd_of (h k hk)

theorem not_dvd_pairs {r : ℕ} {l : List (ℤ × ℤ)} (h : ∀ k ∈ l, k.1 % (r : ℤ) ≠ 0 ∧ k.2 % (r : ℤ) ≠ 0) : ∀ k ∈ l, ¬ (r : ℤ) ∣ k.1 ∧ ¬ (r : ℤ) ∣ k.2 :=
  fun k hk => ⟨not_dvd_of (h k hk).1, not_dvd_of (h k hk).2⟩

theorem not_dvd_pairwise {r : ℕ} {l : List (ℤ × ℤ)} (h : l.Pairwise fun a b => (a.1 - b.1) % (r : ℤ) ≠ 0) : l.Pairwise fun a b => ¬ (r : ℤ) ∣ a.1 - b.1 :=
  h.imp fun h => not_dvd_of h

def fShares : List (ℤ × ℤ) := [(1, 12), (2, 23), (4, 63)]

example := @C116_weierstrass p256_p _ p256 (by meets) .debug [7, 2, 3] (Or.inl (not_dvd_list (by decide +kernel)))

theorem w_feldman : ∃ Cs, wDeal .debug p256 [7, 2, 3] = R.ok Cs ∧ List.Forall₂ (fun C (k : ℤ) => WDenotes p256_p p256 C (k • wg)) Cs [7, 2, 3] :=
  w_deal p256_p p256 (by meets) .debug wG_eq wG_den wg_kill_r [7, 2, 3] (Or.inl (not_dvd_list (by decide +kernel)))

example : ∃ Cs, wDeal .debug p256 [7, 2, 3] = R.ok Cs ∧ combine p256.newScalar [1, 2, 4] fShares = p256.newScalar 7 := by
  obtain ⟨Cs, hCs, hF⟩ := w_feldman
  refine ⟨Cs, hCs, @C116_weierstrass_sound p256_p _ p256 (by meets) (by decide +kernel) .debug wG wg wG_eq wG_den Cs [7, 2, 3] hF fShares
    (by rw [hF.length_eq]; decide) (not_dvd_pairwise (by decide +kernel)) (Or.inl (not_dvd_pairs (by decide +kernel))) fun a ha => ?_⟩
  rw [w_check p256_p p256 (by meets) .debug wG_eq wG_den Cs _ hF a.1 a.2 (Or.inl (not_dvd_pairs (by decide +kernel) a ha)), R.ok.injEq, decide_eq_true_iff]
  revert a
  decide +kernel

/-- A wrong share is rejected. -/
example : (do wCheck .debug p256 2 24 (← wDeal .debug p256 [7, 2, 3])) = R.ok false := by decide +kernel

example := @C116_montgomery curve25519_p _ curve25519 (by meets) .debug [7, 2, 3] (Or.inl (not_dvd_list (by decide +kernel)))

theorem m_feldman : ∃ Cs, mDeal .debug curve25519 [7, 2, 3] = R.ok Cs ∧ List.Forall₂ (fun C (k : ℤ) => MDenotes curve25519_p curve25519 C (k • mg)) Cs [7, 2, 3] :=
  m_deal curve25519_p curve25519 (by meets) .debug mG_eq mG_den mg_kill_r [7, 2, 3] (Or.inl (not_dvd_list (by decide +kernel)))

example : ∃ Cs, mDeal .debug curve25519 [7, 2, 3] = R.ok Cs ∧ combine curve25519.newScalar [1, 2, 4] fShares = curve25519.newScalar 7 := by
  obtain ⟨Cs, hCs, hF⟩ := m_feldman
  refine ⟨Cs, hCs, @C116_montgomery_sound curve25519_p _ curve25519 (by meets) (by decide +kernel) .debug mG mg mG_eq mG_den Cs [7, 2, 3] hF fShares
    (by rw [hF.length_eq]; decide) (not_dvd_pairwise (by decide +kernel)) (Or.inl (not_dvd_pairs (by decide +kernel))) fun a ha => ?_⟩
  rw [m_check curve25519_p curve25519 (by meets) .debug mG_eq mG_den Cs _ hF a.1 a.2 (Or.inl (not_dvd_pairs (by decide +kernel) a ha)), R.ok.injEq, decide_eq_true_iff]
  revert a
  decide +kernel

/-- A wrong share is rejected. -/
example : (do mCheck .debug curve25519 2 24 (← mDeal .debug curve25519 [7, 2, 3])) = R.ok false := by decide +kernel

example := @C116_edwards curve25519_p _ edwards25519 (by meets) _ .debug [7, 2, 3] (Or.inl (not_dvd_list (by decide +kernel)))

theorem e_feldman : ∃ Cs, eDeal .debug edwards25519 [7, 2, 3] = R.ok Cs ∧ List.Forall₂ (fun C (k : ℤ) => EDenotes curve25519_p edwards25519 C (k • eg)) Cs [7, 2, 3] :=
  e_deal curve25519_p edwards25519 (by meets) .debug eG_eq eG_den eg_kill_r [7, 2, 3] (Or.inl (not_dvd_list (by decide +kernel)))

example : ∃ Cs, eDeal .debug edwards25519 [7, 2, 3] = R.ok Cs ∧ combine edwards25519.newScalar [1, 2, 4] fShares = edwards25519.newScalar 7 := by
  obtain ⟨Cs, hCs, hF⟩ := e_feldman
  refine ⟨Cs, hCs, @C116_edwards_sound curve25519_p _ edwards25519 (by meets) _ (by decide +kernel) .debug eG eg eG_eq eG_den Cs [7, 2, 3] hF fShares
    (by rw [hF.length_eq]; decide) (not_dvd_pairwise (by decide +kernel)) (Or.inl (not_dvd_pairs (by decide +kernel))) fun a ha => ?_⟩
  rw [e_check curve25519_p edwards25519 (by meets) .debug eG_eq eG_den Cs _ hF a.1 a.2 (Or.inl (not_dvd_pairs (by decide +kernel) a ha)), R.ok.injEq, decide_eq_true_iff]
  revert a
  decide +kernel

/-- A wrong share is rejected. -/
example : (do eCheck .debug edwards25519 2 24 (← eDeal .debug edwards25519 [7, 2, 3])) = R.ok false := by decide +kernel

end Redox.Witness
