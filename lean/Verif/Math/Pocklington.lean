import Mathlib.GroupTheory.OrderOfElement
import Mathlib.FieldTheory.Finite.Basic
import Mathlib.Data.Nat.Factorization.Basic
import Mathlib.Data.Nat.Prime.Pow
import Mathlib.Tactic.NormNum.Prime
import Verif.Math.PowMod

/-! # Pocklington's primality criterion and a checker the kernel can run -/

namespace Redox.Pock

theorem pow_dvd_of_not_dvd_div {n d q k : ℕ} (hq : q.Prime) (hn : n ≠ 0) (hd : d ∣ n) (hnd : ¬ d ∣ n / q)
    (hk : q ^ k ∣ n) : q ^ k ∣ d := by
  obtain ⟨c, rfl⟩ := hd
  have hqc : ¬ q ∣ c := by
    rintro ⟨c', rfl⟩
    apply hnd
    rw [show d * (q * c') = q * (d * c') by ring, Nat.mul_div_cancel_left _ hq.pos]
    exact Dvd.intro _ rfl
  exact (Nat.Coprime.pow_left k ((Nat.Prime.coprime_iff_not_dvd hq).2 hqc)).dvd_of_dvd_mul_right hk

/-- Pocklington: if `F | N-1`, `F² ≥ N` roughly, and each prime factor of `F` has a witness, then `N` is prime. -/
theorem pocklington {N F : ℕ} (hN : 1 < N) (hF : F ∣ N - 1) (hlt : N < (F + 1) ^ 2)
    (h : ∀ q, q.Prime → q ∣ F → ∃ a, a ^ (N - 1) % N = 1 ∧ Nat.Coprime (a ^ ((N - 1) / q) % N + (N - 1)) N) :
    N.Prime := by
  by_contra hnp
  have hl := Nat.minFac_prime (n := N) (by omega)
  have hlN := Nat.minFac_dvd N
  have hsq := Nat.minFac_sq_le_self (by omega) hnp
  generalize Nat.minFac N = l at hl hlN hsq
  haveI : Fact l.Prime := ⟨hl⟩
  have hFl : F ∣ l - 1 := by
    rw [Nat.dvd_iff_prime_pow_dvd_dvd]
    intro q k hq hqk
    rcases Nat.eq_zero_or_pos k with rfl | hk
    · simp
    obtain ⟨a, ha1, ha2⟩ := h q hq ((dvd_pow_self q hk.ne').trans hqk)
    have e1 : (a : ZMod l) ^ (N - 1) = 1 := by
      have : ((a ^ (N - 1) % N : ℕ) : ZMod l) = ((a ^ (N - 1) : ℕ) : ZMod l) := by
        rw [ZMod.natCast_eq_natCast_iff]
        exact (Nat.mod_modEq _ _).of_dvd hlN
      rw [ha1] at this
      simpa using this.symm
    have e2 : (a : ZMod l) ^ ((N - 1) / q) ≠ 1 := by
      intro h1
      have : ((a ^ ((N - 1) / q) % N + (N - 1) : ℕ) : ZMod l) = 0 := by
        have e : ((a ^ ((N - 1) / q) % N : ℕ) : ZMod l) = ((a ^ ((N - 1) / q) : ℕ) : ZMod l) := by
          rw [ZMod.natCast_eq_natCast_iff]
          exact (Nat.mod_modEq _ _).of_dvd hlN
        have eN : ((N - 1 : ℕ) : ZMod l) = -1 := by
          rw [Nat.cast_sub (by omega), (ZMod.natCast_eq_zero_iff N l).2 hlN]; simp
        rw [Nat.cast_add, e, eN, Nat.cast_pow, h1]; ring
      have hd := (ZMod.natCast_eq_zero_iff _ l).1 this
      have := Nat.dvd_gcd hd hlN
      rw [ha2] at this
      exact hl.one_lt.ne' (Nat.dvd_one.1 this)
    have hd : orderOf (a : ZMod l) ∣ N - 1 := orderOf_dvd_of_pow_eq_one e1
    have hnd : ¬ orderOf (a : ZMod l) ∣ (N - 1) / q := fun h => e2 (orderOf_dvd_iff_pow_eq_one.1 h)
    have hdl : orderOf (a : ZMod l) ∣ l - 1 := by
      apply orderOf_dvd_of_pow_eq_one
      apply ZMod.pow_card_sub_one_eq_one
      intro h0
      rw [h0, zero_pow (by omega)] at e1
      exact zero_ne_one e1
    exact (pow_dvd_of_not_dvd_div hq (by omega) hd hnd (hqk.trans hF)).trans hdl
  have hle : F ≤ l - 1 := Nat.le_of_dvd (by have := hl.two_le; omega) hFl
  have : (F + 1) ^ 2 ≤ l ^ 2 := Nat.pow_le_pow_left (by have := hl.two_le; omega) 2
  omega

/-- One entry `(q, e, a)`: the prime power `q^e` divides `N-1` and `a` is the witness for `q`. -/
abbrev Entry := ℕ × ℕ × ℕ

/-- The factored part. -/
def prod : List Entry → ℕ
  | [] => 1
  | (q, e, _) :: l => q ^ e * prod l

/-- The witness conditions. -/
def wits (N : ℕ) : List Entry → Bool
  | [] => true
  | (q, _, a) :: l => Big.powMod a (N - 1) N == 1 && Nat.gcd (Big.powMod a ((N - 1) / q) N + (N - 1)) N == 1 && wits N l

/-- The conditions on `N` that do not involve primality. -/
def check (N : ℕ) (l : List Entry) : Bool :=
  decide (1 < N) && (N - 1) % prod l == 0 && decide (N < (prod l + 1) ^ 2) && wits N l

theorem mem_of_dvd_prod {q : ℕ} (hq : q.Prime) : ∀ l : List Entry, (∀ t ∈ l, t.1.Prime) → q ∣ prod l → ∃ t ∈ l, t.1 = q
  | [], _, h => absurd (Nat.dvd_one.1 h) hq.ne_one
  | (q', e, a) :: l, hl, h => by
    rcases hq.dvd_mul.1 h with h | h
    · have := hq.dvd_of_dvd_pow h
      have hq' := hl (q', e, a) (by simp)
      exact ⟨_, List.mem_cons_self, ((Nat.prime_dvd_prime_iff_eq hq hq').1 this).symm⟩
    · obtain ⟨t, ht, e⟩ := mem_of_dvd_prod hq l (fun t ht => hl t (by simp [ht])) h
      exact ⟨t, by simp [ht], e⟩

theorem wits_spec {N : ℕ} : ∀ l : List Entry, wits N l = true → ∀ t ∈ l,
    t.2.2 ^ (N - 1) % N = 1 ∧ Nat.Coprime (t.2.2 ^ ((N - 1) / t.1) % N + (N - 1)) N
  | [], _, _, ht => by simp at ht
  | (q, e, a) :: l, h, t, ht => by
    simp only [wits, Bool.and_eq_true, beq_iff_eq, Big.powMod_eq] at h
    rcases List.mem_cons.1 ht with rfl | ht
    · exact ⟨h.1.1, h.1.2⟩
    · exact wits_spec l h.2 t ht

/-- A checked certificate proves primality. -/
theorem prime_of_check (N : ℕ) (l : List Entry) (hl : ∀ t ∈ l, t.1.Prime) (h : check N l = true) : N.Prime := by
  simp only [check, Bool.and_eq_true, decide_eq_true_eq, beq_iff_eq] at h
  obtain ⟨⟨⟨h1, h2⟩, h3⟩, h4⟩ := h
  refine pocklington h1 (Nat.dvd_of_mod_eq_zero h2) h3 fun q hq hd => ?_
  obtain ⟨t, ht, rfl⟩ := mem_of_dvd_prod hq l hl hd
  exact ⟨t.2.2, wits_spec l h4 t ht⟩

end Redox.Pock
