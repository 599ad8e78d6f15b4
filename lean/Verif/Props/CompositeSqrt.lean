import Verif.Props.Composite
import Verif.Proofs.SqrtLink
import Mathlib.RingTheory.ZMod
import Mathlib.Data.Nat.Factorization.Basic
import Mathlib.Data.Nat.ChineseRemainder

/-!
# C93: the square test and square roots when the modulus is not prime
-/

namespace Redox.Props

open Spec

namespace Compos

theorem isSquare_any {n : ℕ} (hn : 2 ≤ n) (a : ZMod n) : haveI : NeZero n := ⟨by omega⟩
    (el a).isSquare = R.ok (decide (a ^ ((n - 1) / 2) = 1 ∨ a ^ ((n - 1) / 2) = 0)) := by
  have : NeZero n := ⟨by omega⟩
  have : Fact (1 < n) := ⟨by omega⟩
  have he : ((((n : ℤ) - 1) / 2) % ((n : ℤ) - 1)).toNat = (n - 1) / 2 := by
    rw [Int.emod_eq_of_lt (by omega) (by omega)]; omega
  simp only [FpElt.isSquare, el_f, powInt_el, he, R.ok_bind, isOne_el, isZero_el, R.pure_eq, R.ok.injEq]
  simp

/-- `(1 + x) ^ m = 1 + m x` when `x ^ 2 = 0`. -/
theorem one_add_pow {S : Type*} [CommRing S] {x : S} (hx : x * x = 0) (m : ℕ) : (1 + x) ^ m = 1 + m * x := by
  induction m with
  | zero => simp
  | succ m ih =>
    rw [pow_succ, ih]; push_cast
    linear_combination (m : S) * hx

/-- A modulus with two coprime proper factors has an idempotent that is not zero or one. -/
theorem exists_idem {u v : ℕ} (hu : 1 < u) (hv : 1 < v) (h : Nat.Coprime u v) :
    ∃ e : ZMod (u * v), e * e = e ∧ e ≠ 0 ∧ e ≠ 1 := by
  obtain ⟨k, h1, h2⟩ := Nat.chineseRemainder h 1 0
  refine ⟨(k : ZMod (u * v)), ?_, ?_, ?_⟩
  · rw [← Nat.cast_mul, ZMod.natCast_eq_natCast_iff]
    refine (Nat.modEq_and_modEq_iff_modEq_mul h).1 ⟨?_, ?_⟩
    · have := h1.mul_right k; rwa [one_mul] at this
    · exact (h2.mul_right k).trans (by simpa using h2.symm)
  · intro h0
    rw [ZMod.natCast_eq_zero_iff] at h0
    have : u ∣ k := dvd_trans (dvd_mul_right u v) h0
    have h3 : 1 ≡ 0 [MOD u] := h1.symm.trans ((Nat.modEq_zero_iff_dvd).2 this)
    rw [Nat.modEq_zero_iff_dvd] at h3
    have := Nat.le_of_dvd one_pos h3
    omega
  · intro h0
    have h0' : ((k : ℕ) : ZMod (u * v)) = ((1 : ℕ) : ZMod (u * v)) := by rw [h0]; simp
    rw [ZMod.natCast_eq_natCast_iff] at h0'
    have h3 : 1 ≡ 0 [MOD v] := (((Nat.modEq_and_modEq_iff_modEq_mul h).2 h0').2).symm.trans h2
    rw [Nat.modEq_zero_iff_dvd] at h3
    have := Nat.le_of_dvd one_pos h3
    omega

/-- Euler's criterion, in the form used by the code, is right for all classes exactly if the modulus is prime or four. -/
theorem euler_iff {n : ℕ} (hn : 2 ≤ n) :
    (∀ a : ZMod n, (a ^ ((n - 1) / 2) = 1 ∨ a ^ ((n - 1) / 2) = 0) ↔ IsSquare a) ↔ n.Prime ∨ n = 4 := by
  have : NeZero n := ⟨by omega⟩
  constructor
  · intro h
    by_contra hc
    push Not at hc
    obtain ⟨hp, h4⟩ := hc
    -- two coprime factors
    have hpp : ∃ q k, q.Prime ∧ 2 ≤ k ∧ n = q ^ k := by
      obtain ⟨q, hq, hqn⟩ := Nat.exists_prime_and_dvd (by omega : n ≠ 1)
      obtain ⟨k, m, hm, hnk⟩ := Nat.exists_eq_pow_mul_and_not_dvd (by omega : n ≠ 0) q hq.ne_one
      have hk : k ≠ 0 := by
        rintro rfl; rw [pow_zero, one_mul] at hnk; exact hm (hnk ▸ hqn)
      have hcop : Nat.Coprime (q ^ k) m := Nat.Coprime.pow_left k ((Nat.Prime.coprime_iff_not_dvd hq).2 hm)
      have hm1 : m = 1 := by
        by_contra hm1
        have hm0 : m ≠ 0 := by rintro rfl; simp at hm
        have hidem := exists_idem (Nat.one_lt_pow hk hq.one_lt) (by omega : 1 < m) hcop
        rw [← hnk] at hidem
        obtain ⟨e, he, h0, h1⟩ := hidem
        have hpow : ∀ j, e ^ (j + 1) = e := by
          intro j
          induction j with
          | zero => rw [zero_add, pow_one]
          | succ j ih => rw [pow_succ, ih, he]
        have hn3 : n ≠ 2 := fun h => hp (h ▸ Nat.prime_two)
        obtain ⟨j, hj⟩ : ∃ j, (n - 1) / 2 = j + 1 := ⟨(n - 1) / 2 - 1, by omega⟩
        have := (h e).2 ⟨e, he.symm⟩
        rw [hj, hpow] at this
        exact this.elim h1 h0
      subst hm1
      rw [mul_one] at hnk
      refine ⟨q, k, hq, ?_, hnk⟩
      by_contra hk2
      have : k = 1 := by omega
      subst this
      rw [pow_one] at hnk
      exact hp (hnk ▸ hq)
    obtain ⟨q, k, hq, hk, hnk⟩ := hpp
    have hq2 := hq.two_le
    obtain ⟨l, rfl⟩ : ∃ l, k = l + 2 := ⟨k - 2, by omega⟩
    rcases hq.eq_two_or_odd with rfl | hodd
    · -- a power of two: two itself is reported
      have hl : l ≠ 0 := by rintro rfl; exact h4 (by rw [hnk]; rfl)
      have hge : l + 2 ≤ (n - 1) / 2 := by
        have : ∀ l, l ≠ 0 → 2 * (l + 2) + 1 < 2 ^ (l + 2) := by
          intro l
          induction l with
          | zero => intro h; exact absurd rfl h
          | succ l ih =>
            intro _
            by_cases hl : l = 0
            · subst hl; norm_num
            · have := ih hl
              rw [show l + 1 + 2 = (l + 2) + 1 by ring, pow_succ]; omega
        have := this l hl
        rw [← hnk] at this
        omega
      have hz : (2 : ZMod n) ^ (l + 2) = 0 := by
        have : ((2 ^ (l + 2) : ℕ) : ZMod n) = 0 := by rw [← hnk]; simp
        push_cast at this; exact this
      have h2 : IsSquare (2 : ZMod n) := (h 2).1 (Or.inr (by
        rw [← Nat.add_sub_cancel' hge, pow_add, hz, zero_mul]))
      have hd : 4 ∣ n := ⟨2 ^ l, by rw [hnk]; ring⟩
      obtain ⟨r, hr⟩ := h2
      have hr' := congrArg (ZMod.castHom hd (ZMod 4)) hr
      rw [map_mul, map_ofNat] at hr'
      generalize ZMod.castHom hd (ZMod 4) r = t at hr'
      revert t
      decide
    · -- a power of an odd prime
      have hnodd : n % 2 = 1 := by
        rw [hnk]; exact Nat.odd_iff.1 ((Nat.odd_iff.2 hodd).pow)
      have hx : ((q ^ (l + 1) : ℕ) : ZMod n) * ((q ^ (l + 1) : ℕ) : ZMod n) = 0 := by
        rw [← Nat.cast_mul, ZMod.natCast_eq_zero_iff]
        exact ⟨q ^ l, by rw [hnk]; ring⟩
      have hx0 : ((q ^ (l + 1) : ℕ) : ZMod n) ≠ 0 := by
        rw [Ne, ZMod.natCast_eq_zero_iff, hnk]
        exact fun hd => absurd ((Nat.pow_dvd_pow_iff_le_right hq.one_lt).1 hd) (by omega)
      generalize ((q ^ (l + 1) : ℕ) : ZMod n) = x at hx hx0
      have hcast : ((n - 1 : ℕ) : ZMod n) = -1 := by
        rw [Nat.cast_sub (by omega)]; simp
      have := (h ((1 + x) * (1 + x))).2 ⟨1 + x, rfl⟩
      rw [← pow_two, ← pow_mul, show 2 * ((n - 1) / 2) = n - 1 by omega, one_add_pow hx, hcast] at this
      rcases this with h1 | h1
      · exact hx0 (by linear_combination -h1)
      · have hx1 : x = 1 := by linear_combination -h1
        rw [hx1, one_mul] at hx
        rw [hx1] at hx0
        exact hx0 hx
  · rintro (hp | rfl)
    · have := Fact.mk hp
      rcases hp.eq_two_or_odd with rfl | hodd
      · decide
      · intro a
        have hh : (n - 1) / 2 = n / 2 := by omega
        have h0 : n / 2 ≠ 0 := by omega
        rw [hh]
        by_cases ha : a = 0
        · subst ha; simp [h0]
        · rw [ZMod.euler_criterion n ha]
          exact ⟨fun h => h.elim id (fun h => absurd (pow_eq_zero_iff h0 |>.1 h) ha), Or.inl⟩
    · decide

/-- `b ^ (n + 1) = b ^ 2` for all classes exactly if `b ^ n = b` for all classes. -/
theorem korselt {n : ℕ} (hn : 2 ≤ n) : (∀ b : ZMod n, b ^ (n + 1) = b * b) ↔ ∀ b : ZMod n, b ^ n = b := by
  have : NeZero n := ⟨by omega⟩
  constructor
  · intro h
    have hred : ∀ x : ZMod n, x * x = 0 → x = 0 := by
      intro x hx
      have h1 := h (1 + x)
      rw [one_add_pow hx] at h1
      push_cast at h1
      rw [ZMod.natCast_self] at h1
      linear_combination -h1 - hx
    intro b
    obtain ⟨m, rfl⟩ : ∃ m, n = m + 1 := ⟨n - 1, by omega⟩
    have h1 := h b
    have h2 : b * b * (b ^ m - 1) = 0 := by
      rw [pow_succ, pow_succ] at h1
      linear_combination h1
    have h3 := hred (b * (b ^ m - 1)) (by linear_combination (b ^ m - 1) * h2)
    rw [pow_succ]
    linear_combination h3
  · intro h b
    rw [pow_succ, h]

theorem sqrt_3mod4_any {n : ℕ} (hn : n % 4 = 3) (a : ZMod n) : haveI : NeZero n := ⟨by omega⟩
    (el a).sqrt = R.ok (el (a ^ ((n + 1) / 4))) := by
  have : NeZero n := ⟨by omega⟩
  have : Fact (1 < n) := ⟨by omega⟩
  have hc : Fp.calcSqrtPrecmp ⟨n⟩ = R.ok (.p3mod4 (((n : ℤ) + 1) / 4)) := by
    simp [Fp.calcSqrtPrecmp, hn.symm]
  rw [FpElt.sqrt, el_f, hc, R.ok_bind, FpElt.sqrtWith, powInt_el]
  congr 3
  rw [Int.emod_eq_of_lt (by omega) (by omega)]
  omega

end Compos

open Compos

/-- C93, the square test: for a modulus of at least two, `is_square` never panics, and its answer is right for every element exactly if the modulus
is prime or four. -/
theorem C93_is_square_iff (n : ℕ) (hn : 2 ≤ n) :
    (∀ a, Canon n a → ∃ t, a.isSquare = R.ok t) ∧
    ((∀ a, Canon n a → (a.isSquare = R.ok true ↔ ∃ y, Canon n y ∧ y.mul y = R.ok a)) ↔ n.Prime ∨ n = 4) := by
  have : NeZero n := ⟨by omega⟩
  have hsq : ∀ a : ZMod n, (∃ y, Canon n y ∧ y.mul y = R.ok (el a)) ↔ IsSquare a := by
    intro a
    constructor
    · rintro ⟨y, hy, h⟩
      obtain ⟨y, rfl⟩ := canon_iff.1 hy
      rw [mul_el, R.ok.injEq, el_inj] at h
      exact ⟨y, h.symm⟩
    · rintro ⟨y, rfl⟩
      exact ⟨el y, canon_el _, mul_el _ _⟩
  refine ⟨fun a ha => ?_, ?_⟩
  · obtain ⟨a, rfl⟩ := canon_iff.1 ha
    exact ⟨_, isSquare_any hn a⟩
  · rw [← euler_iff hn]
    constructor
    · intro h a
      have := h (el a) (canon_el a)
      rwa [isSquare_any hn, hsq, R.ok.injEq, decide_eq_true_iff] at this
    · intro h a ha
      obtain ⟨a, rfl⟩ := canon_iff.1 ha
      rw [isSquare_any hn, hsq, R.ok.injEq, decide_eq_true_iff]
      exact h a

/-- C93, square roots: for a modulus that is 3 modulo 4, `sqrt` never panics, and it returns a square root of every element that has one exactly if
`b ^ n = b` modulo `n` for every integer `b`, that is, if the modulus is prime or a Carmichael number. -/
theorem C93_sqrt_iff (n : ℕ) (hn : n % 4 = 3) :
    (∀ a, Canon n a → ∃ y, a.sqrt = R.ok y ∧ Canon n y) ∧
    ((∀ a w, Canon n a → Canon n w → w.mul w = R.ok a → (do let y ← a.sqrt; y.mul y) = R.ok a) ↔
      ∀ b : ℤ, b ^ n ≡ b [ZMOD n]) := by
  have : NeZero n := ⟨by omega⟩
  have hz : (∀ b : ℤ, b ^ n ≡ b [ZMOD n]) ↔ ∀ b : ZMod n, b ^ n = b := by
    constructor
    · intro h b
      have := (ZMod.intCast_eq_intCast_iff _ _ n).2 (h (b.cast : ℤ))
      push_cast at this
      simpa using this
    · intro h b
      refine (ZMod.intCast_eq_intCast_iff _ _ n).1 ?_
      push_cast; exact h b
  have hexp : ∀ w : ZMod n, (w * w) ^ ((n + 1) / 4) * (w * w) ^ ((n + 1) / 4) = w ^ (n + 1) := by
    intro w
    rw [← pow_two w, ← pow_mul, ← pow_add]; congr 1; omega
  refine ⟨fun a ha => ?_, ?_⟩
  · obtain ⟨a, rfl⟩ := canon_iff.1 ha
    exact ⟨_, sqrt_3mod4_any hn a, canon_el _⟩
  · rw [hz, ← korselt (by omega)]
    constructor
    · intro h b
      have := h (el (b * b)) (el b) (canon_el _) (canon_el _) (mul_el _ _)
      rw [sqrt_3mod4_any hn, R.ok_bind, mul_el, R.ok.injEq, el_inj, hexp] at this
      exact this
    · intro h a w ha hw haw
      obtain ⟨a, rfl⟩ := canon_iff.1 ha
      obtain ⟨w, rfl⟩ := canon_iff.1 hw
      rw [mul_el, R.ok.injEq, el_inj] at haw
      subst haw
      rw [sqrt_3mod4_any hn, R.ok_bind, mul_el, hexp, h]

/-- Modulo 15, `is_square` denies that 10 is a square. Modulo the Carmichael number 8911 = 7 * 19 * 67, which is 3 modulo 4, it denies that 49 is
one, and the square root of 49 that `sqrt` returns is nevertheless right. -/
example : (do (← (Fp.new 15).elt 10).isSquare) = R.ok false ∧ (5 : ZMod 15) * 5 = 10 ∧
    (do (← (Fp.new 8911).elt 49).isSquare) = R.ok false ∧
    (do let y ← (← (Fp.new 8911).elt 49).sqrt; y.mul y) = (Fp.new 8911).elt 49 ∧ 8911 % 4 = 3 ∧ ¬ Nat.Prime 8911 := by
  refine ⟨by decide +kernel, by decide, by decide +kernel, by decide +kernel, by norm_num, by norm_num⟩

/-- The modulus 75 is neither prime nor a Carmichael number: the square root of 4 is wrong. -/
example : (do let y ← (← (Fp.new 75).elt 4).sqrt; y.mul y) ≠ (Fp.new 75).elt 4 := by decide +kernel

end Redox.Props
