import Mathlib.NumberTheory.LegendreSymbol.QuadraticReciprocity
import Mathlib.Tactic.Ring
import Verif.Proofs.FpLink

/-! # `sqrt` and `sgn0` in terms of `ZMod p` -/

set_option linter.unusedSectionVars false

namespace Redox

open Spec

section
variable {p : ℕ} [hp : Fact p.Prime]

/-- The constant `sqrt_minus_one` of `calc_sqrt_precmp` for `p % 8 = 5`. -/
def sqrtM1 (p : ℕ) : ZMod p := let t := (2 : ZMod p) ^ ((p - 5) / 8); (2 * (t * t) + 1) * t

/-- Closed form of what `sqrt` returns for `p % 4 = 3` or `p % 8 = 5`. -/
def sqrtZ {p : ℕ} (a : ZMod p) : ZMod p :=
  if p % 4 = 3 then a ^ ((p + 1) / 4)
  else
    let t0 := a ^ ((p + 3) / 8)
    if a = t0 * t0 then t0 else t0 * sqrtM1 p

/-- The moduli for which `sqrt` is implemented. -/
def SqrtOK (p : ℕ) : Prop := p % 4 = 3 ∨ p % 8 = 5

instance (p : ℕ) : Decidable (SqrtOK p) := inferInstanceAs (Decidable (_ ∨ _))

theorem SqrtOK.two_lt (h : SqrtOK p) : 2 < p := by rcases h with h | h <;> omega

theorem calc_3mod4 (h : p % 4 = 3) : Fp.calcSqrtPrecmp ⟨p⟩ = R.ok (.p3mod4 (((p : ℤ) + 1) / 4)) := by
  have : 3 = p % 16 % 4 := by omega
  simp [Fp.calcSqrtPrecmp, this.symm]

theorem calc_5mod8 (h : p % 8 = 5) :
    Fp.calcSqrtPrecmp ⟨p⟩ = R.ok (.p5mod8 (((p : ℤ) - 5) / 8 + 1) (el (sqrtM1 p))) := by
  have h1 : ¬ (3 = p % 16 % 4) := by omega
  have h2 : 5 = p % 16 % 8 := by omega
  have h3 : ((((p : ℤ) - 5) / 8) % ((p : ℤ) - 1)).toNat = (p - 5) / 8 := by
    rw [Int.emod_eq_of_lt (by omega) (by omega)]; omega
  simp only [Fp.calcSqrtPrecmp, h1, if_false, ← h2, if_true]
  simp only [one_eq, R.fadd_ok, add_el, R.ok_bind, powInt_el, h3, sqr_el, R.fmul_ok, mul_el, R.pure_eq]
  congr 3
  simp only [sqrtM1]; ring_nf

theorem sqrt_el (h : SqrtOK p) (a : ZMod p) : (el a).sqrt = R.ok (el (sqrtZ a)) := by
  rcases h with h | h
  · have h3 : ((((p : ℤ) + 1) / 4) % ((p : ℤ) - 1)).toNat = (p + 1) / 4 := by
      rw [Int.emod_eq_of_lt (by omega) (by omega)]; omega
    simp only [FpElt.sqrt, el_f, calc_3mod4 h, R.ok_bind, FpElt.sqrtWith, powInt_el, h3, sqrtZ, h, if_true]
  · have h1 : ¬ (p % 4 = 3) := by omega
    have h3 : (((((p : ℤ) - 5) / 8) + 1) % ((p : ℤ) - 1)).toNat = (p + 3) / 8 := by
      rw [Int.emod_eq_of_lt (by omega) (by omega)]; omega
    simp only [FpElt.sqrt, el_f, calc_5mod8 h, R.ok_bind, FpElt.sqrtWith, powInt_el, h3, sqrtZ, h1, if_false,
      sqr_el, el_beq, R.fmul_ok, mul_el, cmov_el, R.pure_eq, decide_eq_true_eq]

theorem two_pow_half (h : p % 8 = 5) : (2 : ZMod p) ^ (p / 2) = -1 := by
  have hns : ¬ IsSquare (2 : ZMod p) := by
    rw [ZMod.exists_sq_eq_two_iff (by omega)]; omega
  have h2 : (2 : ZMod p) ≠ 0 := by rintro h0; exact hns (h0 ▸ IsSquare.zero)
  rcases ZMod.pow_div_two_eq_neg_one_or_one p h2 with h1 | h1
  · exact absurd ((ZMod.euler_criterion p h2).2 h1) hns
  · exact h1

theorem sqrtM1_sq (h : p % 8 = 5) : sqrtM1 p * sqrtM1 p = -1 := by
  have h2 := two_pow_half h
  set t : ZMod p := 2 ^ ((p - 5) / 8) with ht
  have h4 : 4 * (t ^ 4) = -1 := by
    rw [← h2, ht, ← pow_mul, show (4 : ZMod p) = 2 ^ 2 by norm_num, ← pow_add]; congr 1; omega
  simp only [sqrtM1, ← ht]
  linear_combination (t * t + 1) * h4

theorem sqrtZ_sq (h : SqrtOK p) {a : ZMod p} (ha : IsSquare a) : sqrtZ a * sqrtZ a = a := by
  by_cases h0 : a = 0
  · subst h0
    unfold sqrtZ
    rcases h with h | h
    · have : (p + 1) / 4 ≠ 0 := by omega
      rw [if_pos h, zero_pow this, mul_zero]
    · have h1 : ¬ (p % 4 = 3) := by omega
      have : (p + 3) / 8 ≠ 0 := by omega
      rw [if_neg h1]; simp only [zero_pow this, mul_zero, if_true]
  have he := (ZMod.euler_criterion p h0).1 ha
  unfold sqrtZ
  rcases h with h | h
  · rw [if_pos h, ← pow_add, show (p + 1) / 4 + (p + 1) / 4 = p / 2 + 1 by omega, pow_succ, he, one_mul]
  · have h1 : ¬ (p % 4 = 3) := by omega
    rw [if_neg h1]
    set t := a ^ ((p + 3) / 8) with ht
    simp only
    split
    · next h' => exact h'.symm
    · next h' =>
      have ht4 : (t * t) * (t * t) = a * a := by
        rw [ht, ← pow_add, ← pow_add, show (p + 3) / 8 + (p + 3) / 8 + ((p + 3) / 8 + (p + 3) / 8) = p / 2 + 2 by omega,
          pow_add, he, one_mul, pow_two]
      have : (a - t * t) * (a + t * t) = 0 := by linear_combination -ht4
      rcases mul_eq_zero.1 this with h5 | h5
      · exact absurd (sub_eq_zero.1 h5) h'
      · linear_combination t * t * sqrtM1_sq h - h5

/-- `sqrtZ` of a non-square is never a square root (there is none). -/
theorem sqrtZ_not_sq {a : ZMod p} (ha : ¬ IsSquare a) : sqrtZ a * sqrtZ a ≠ a := fun h => ha ⟨_, h.symm⟩

end

section sgn
variable {p : ℕ} [NeZero p]

theorem sgn0_el (a : ZMod p) : (el a).sgn0 = if a.val % 2 = 0 then 1 else -1 := by
  have h : (a.cast : ℤ).tmod 2 = ((a.val % 2 : ℕ) : ℤ) := by
    rw [cast_eq_val, Int.tmod_eq_emod_of_nonneg (by positivity)]; rfl
  simp only [FpElt.sgn0, el_n, h]
  rcases Nat.mod_two_eq_zero_or_one a.val with h' | h' <;> simp [h']

end sgn

end Redox
