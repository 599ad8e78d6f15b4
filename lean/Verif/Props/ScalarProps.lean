import Verif.Proofs.FpLink
import Verif.Proofs.BitsLink
import Verif.Props.FieldBytes
import Mathlib.Tactic.NormNum.Prime

/-!
# C19–C21: scalars

The three scalar modules (weierstrass, montgomery, edwards) are the same code; `Model/Scalar.lean` models all of them.
-/

namespace Redox.Props

open Spec

/-- `s` is a scalar of the group order `r`, reduced. Every scalar made by `new_scalar` and the operators is. -/
def CanonScalar (r : ℕ) (s : Scalar) : Prop := s.r = r ∧ 0 ≤ s.k ∧ s.k < r

/-! ## C19 -/

theorem scalar_new_eq (r : ℕ) (hr : 1 ≤ r) (k : ℤ) : Scalar.new k r = R.ok ⟨k % r, r⟩ := by
  have h : r ≠ 0 := by omega
  simp [Scalar.new, Big.modFloor, h, Int.fmod_eq_emod_of_nonneg]

theorem scalar_red_eq (r : ℕ) (hr : 1 ≤ r) (k k' : ℤ) : (Scalar.mk k r).red k' = R.ok ⟨k' % r, r⟩ := by
  have h : r ≠ 0 := by omega
  simp [Scalar.red, Big.modFloor, h, Int.fmod_eq_emod_of_nonneg]

/-- C19. Scalars made from integers `a`, `b` add, subtract, multiply and negate like the integers modulo `r`; they are
equal exactly when `r` divides `a - b`; nothing panics. -/
theorem C19_arith (r : ℕ) (hr : 1 ≤ r) (a b : ℤ) :
    ∃ x y, Scalar.new a r = R.ok x ∧ Scalar.new b r = R.ok y ∧ CanonScalar r x ∧ CanonScalar r y ∧
      x.add y = Scalar.new (a + b) r ∧ x.sub y = Scalar.new (a - b) r ∧ x.mul y = Scalar.new (a * b) r ∧
      x.neg = Scalar.new (-a) r ∧ (x = y ↔ (r : ℤ) ∣ a - b) := by
  have h0 : ∀ z : ℤ, 0 ≤ z % (r : ℤ) := fun z => Int.emod_nonneg _ (by omega)
  have h1 : ∀ z : ℤ, z % (r : ℤ) < r := fun z => Int.emod_lt_of_pos _ (by omega)
  refine ⟨_, _, scalar_new_eq r hr a, scalar_new_eq r hr b, ⟨rfl, h0 _, h1 _⟩, ⟨rfl, h0 _, h1 _⟩, ?_, ?_, ?_, ?_, ?_⟩
  · simp [Scalar.add, scalar_new_eq r hr, scalar_red_eq r hr, Int.add_emod]
  · simp [Scalar.sub, scalar_new_eq r hr, scalar_red_eq r hr, Int.sub_emod]
  · simp [Scalar.mul, scalar_new_eq r hr, scalar_red_eq r hr, Int.mul_emod]
  · simp only [Scalar.neg, scalar_new_eq r hr, scalar_red_eq r hr, R.ok.injEq, Scalar.mk.injEq, and_true]
    exact Int.ModEq.neg (Int.mod_modEq a r)
  · simp only [Scalar.mk.injEq, and_true]
    rw [Int.emod_eq_emod_iff_emod_sub_eq_zero]
    exact Int.dvd_iff_emod_eq_zero.symm

/-- C19, division: for a prime order `r > 2`, `(a / b) * b = a` for `b ≠ 0`, `1u32 / b` is the inverse, and dividing by
zero returns zero. -/
theorem C19_div (r : ℕ) (hr : r.Prime) (h2 : r ≠ 2) (a b : Scalar) (ha : CanonScalar r a) (hb : CanonScalar r b) :
    (b.k ≠ 0 → ∃ q, a.div b = R.ok q ∧ CanonScalar r q ∧ q.mul b = R.ok a) ∧
    (b.k ≠ 0 → ∃ i, Scalar.u32Div 1 b = R.ok i ∧ CanonScalar r i ∧ i.mul b = Scalar.new 1 r) ∧
    (b.k = 0 → a.div b = Scalar.new 0 r) := by
  haveI := Fact.mk hr
  have h3 : 2 < r := by have := hr.two_le; omega
  haveI : Fact (2 < r) := ⟨h3⟩
  obtain ⟨ak, ar⟩ := a
  obtain ⟨bk, br⟩ := b
  obtain ⟨har, ha0, ha1⟩ := ha
  obtain ⟨hbr, hb0, hb1⟩ := hb
  simp only at har ha0 ha1 hbr hb0 hb1
  subst har hbr
  have hcast : ∀ k : ℤ, 0 ≤ k → k < r → ((k : ZMod r).cast : ℤ) = k := fun k h0 h1 => by
    rw [cast_int_eq, Int.emod_eq_of_lt h0 h1]
  have hinv : (Scalar.mk bk r).invMod = R.ok ⟨(((bk : ZMod r)⁻¹).cast : ℤ), r⟩ := by
    have hm := modpow_eq (p := r) (bk : ZMod r) (r - 2)
    rw [hcast bk hb0 hb1, Nat.cast_sub (by omega)] at hm
    have hpow : (bk : ZMod r) ^ (r - 2) = (bk : ZMod r)⁻¹ := by
      by_cases hz : (bk : ZMod r) = 0
      · rw [hz, zero_pow (by omega), inv_zero]
      · have := ZMod.pow_card_sub_one_eq_one hz
        have h4 : (bk : ZMod r) ^ (r - 2) * bk = 1 := by rw [← pow_succ]; convert this using 2; omega
        exact eq_inv_of_mul_eq_one_left h4
    rw [Scalar.invMod]
    simp only [Nat.cast_ofNat] at hm
    simp only [hm, R.ok_bind, hpow]
    rw [scalar_red_eq r (by omega), ← cast_int_eq, cast_cast_int]
  have hmulz : ∀ u v : ZMod r, (Scalar.mk (u.cast : ℤ) r).mul ⟨(v.cast : ℤ), r⟩ = R.ok ⟨((u * v).cast : ℤ), r⟩ := by
    intro u v
    simp only [Scalar.mul, beq_self_eq_true, doIfEq_true, scalar_red_eq r (by omega : 1 ≤ r)]
    rw [← cast_int_eq]; simp
  have hac : (Scalar.mk ak r) = ⟨((ak : ZMod r).cast : ℤ), r⟩ := by rw [hcast ak ha0 ha1]
  have hbc : (Scalar.mk bk r) = ⟨((bk : ZMod r).cast : ℤ), r⟩ := by rw [hcast bk hb0 hb1]
  have hne : bk ≠ 0 → (bk : ZMod r) ≠ 0 := by
    intro h hz
    apply h
    have := hcast bk hb0 hb1
    rw [hz] at this; simpa using this.symm
  have hdiv : (Scalar.mk ak r).div ⟨bk, r⟩ = R.ok ⟨((ak * (bk : ZMod r)⁻¹).cast : ℤ), r⟩ := by
    rw [Scalar.div, hinv, R.ok_bind, hac, hmulz]
  refine ⟨fun h => ⟨_, hdiv, ⟨rfl, cast_nonneg _, cast_lt _⟩, ?_⟩, fun h => ⟨_, by
    simp only [Scalar.u32Div, beq_self_eq_true, doIfEq_true]; exact hinv, ⟨rfl, cast_nonneg _, cast_lt _⟩, ?_⟩, ?_⟩
  · rw [hbc, hmulz, inv_mul_cancel_right₀ (hne h), ← hac]
  · rw [hbc, hmulz, inv_mul_cancel₀ (hne h), scalar_new_eq r (by omega), ← cast_int_eq]; simp
  · intro h
    subst h
    rw [hdiv, scalar_new_eq r (by omega)]; simp

/-- C19, mixing: scalars of different orders panic. -/
theorem C19_mix (a b : Scalar) (h : a.r ≠ b.r) :
    a.add b = R.panic .differentGroups ∧ a.sub b = R.panic .differentGroups ∧ a.mul b = R.panic .differentGroups ∧
    ∃ why, a.div b = R.panic why := by
  have hb : (a.r == b.r) = false := by simpa using h
  refine ⟨by simp [Scalar.add, hb], by simp [Scalar.sub, hb], by simp [Scalar.mul, hb], ?_⟩
  cases hi : b.invMod with
  | panic e => exact ⟨e, by simp [Scalar.div, hi]⟩
  | ok i =>
    have hir : i.r = b.r := by
      simp only [Scalar.invMod, Scalar.red] at hi
      obtain ⟨_, _, hi⟩ := R.bind_eq_ok.1 hi
      obtain ⟨_, _, hi⟩ := R.bind_eq_ok.1 hi
      simp only [R.pure_eq, R.ok.injEq] at hi
      rw [← hi]
    exact ⟨.differentGroups, by simp [Scalar.div, hi, Scalar.mul, hir, hb]⟩

example : Scalar.new (-3) 11 = R.ok ⟨8, 11⟩ ∧ (Scalar.mk 8 11).mul ⟨7, 11⟩ = R.ok ⟨1, 11⟩ ∧
    (Scalar.mk 1 11).div ⟨8, 11⟩ = R.ok ⟨7, 11⟩ ∧ CanonScalar 11 ⟨8, 11⟩ ∧ Nat.Prime 11 := by
  refine ⟨by decide +kernel, by decide +kernel, by decide +kernel, ⟨rfl, by decide, by decide⟩, by norm_num⟩

/-! ## C20 -/

/-- C20, `iter_rl`: yields, without panicking, the bits of `k` from least to most significant, up to the top set bit;
`k = 0` yields nothing. -/
theorem C20_iter_rl (k : ℕ) (r : ℤ) :
    ∃ bs, (Scalar.mk k r).iterRL = R.ok bs ∧ (∀ i, bs.getD i false = k.testBit i) ∧
      (bs = [] ↔ k = 0) ∧ (k ≠ 0 → bs.getLast? = some true) ∧
      bs.foldr (fun b acc => b.toNat + 2 * acc) 0 = k := by
  refine ⟨_, iterRL_eq k r, fun i => ?_, ?_, fun hk => ?_, ?_⟩
  · have hget : ∀ n j i, (bitsUp k j n).getD i false = if i < n then k.testBit (j + i) else false := by
      intro n
      induction n with
      | zero => intro j i; simp [bitsUp]
      | succ n ih =>
        intro j i
        cases i with
        | zero => simp [bitsUp]
        | succ i =>
          rw [bitsUp, List.getD_cons_succ, ih]
          simp only [Nat.add_lt_add_iff_right]
          rw [show j + 1 + i = j + (i + 1) by omega]
    rw [hget]
    split_ifs with h
    · rw [zero_add]
    · symm
      apply Nat.testBit_lt_two_pow
      exact lt_of_lt_of_le (Big.lt_two_pow_bits k) (Nat.pow_le_pow_right (by omega) (by omega))
  · rw [← Big.bits_eq_zero, bitsUp_eq_reverse, List.reverse_eq_nil_iff, ← List.length_eq_zero_iff, bitsDown_length]
  · rw [bitsUp_eq_reverse, List.getLast?_reverse, bitsDown_head hk]
  · rw [bitsUp_eq_reverse, List.foldr_reverse]
    have := valMSB_bitsDown k
    rw [valMSB] at this
    conv_rhs => rw [← this]
    congr 1
    funext acc b
    omega

/-- C20, `iter_lr`, nonzero scalars: the same bits in reverse order, in both build profiles.
Partial: for the zero scalar the debug profile panics, see `C20_refuted_zero`. -/
theorem C20_iter_lr_partial (prof : Profile) (k : ℕ) (r : ℤ) (hk : k ≠ 0) (hb : Big.bits k < usizeMod) :
    ∃ bs, (Scalar.mk k r).iterRL = R.ok bs ∧ (Scalar.mk k r).iterLR prof = R.ok bs.reverse := by
  exact ⟨_, iterRL_eq k r, by rw [iterLR_eq prof r hk hb, bitsUp_eq_reverse, List.reverse_reverse]⟩

/-- C20 is refuted for the zero scalar: `iter_lr` panics with overflow checks on; without them it is empty. -/
theorem C20_refuted_zero (r : ℤ) :
    (Scalar.mk 0 r).iterLR .debug = R.panic .overflow ∧ (Scalar.mk 0 r).iterLR .release = R.ok [] :=
  ⟨iterLR_zero_debug r, iterLR_zero_release r⟩

example : (Scalar.mk 6 11).iterRL = R.ok [false, true, true] ∧ (Scalar.mk 6 11).iterLR .debug = R.ok [true, true, false] := by
  constructor <;> decide +kernel

/-! ## C21 -/

/-- C21. Serialization of a reduced scalar never panics, has length `ceil(bits(r)/8)`, is the big-endian value of the
scalar, and reading it back as an integer gives the same scalar; little endian is the reverse. -/
theorem C21_serialize (r : ℕ) (hr : 1 ≤ r) (s : Scalar) (hs : CanonScalar r s) :
    ∃ bs, s.toBytesBE = R.ok bs ∧ s.toBytesLE = R.ok bs.reverse ∧ bs.length = (Big.bits r + 7) / 8 ∧ (beValue bs : ℤ) = s.k ∧
      Scalar.new (beValue bs) r = R.ok s ∧
      ∀ t, CanonScalar r t → t.toBytesBE = R.ok bs → t = s := by
  have key : ∀ s, CanonScalar r s → s.toBytesBE = R.ok (Big.fixedBE ((Big.bits r + 7) / 8) s.k.toNat) := by
    rintro ⟨k, r'⟩ ⟨hr', h0, h1⟩
    simp only at hr' h0 h1
    subst hr'
    have hlt : k.toNat < 256 ^ ((Big.bits r + 7) / 8) := by
      have := Big.lt_256_pow_size r; omega
    have hle := Big.toBytesBE_length_le (Big.one_le_size (by omega : r ≠ 0)) hlt
    have hn : ¬ (k < 0) := by omega
    simp [Scalar.toBytesBE, Big.toBiguint, hn, Nat.not_lt.2 hle, Big.fixedBE]
  have hlt : s.k.toNat < 256 ^ ((Big.bits r + 7) / 8) := by
    obtain ⟨_, h0, h1⟩ := hs
    have := Big.lt_256_pow_size r; omega
  refine ⟨_, key s hs, by simp [Scalar.toBytesLE, key s hs],
    Big.fixedBE_length (Big.one_le_size (by omega)) hlt, ?_, ?_, ?_⟩
  · rw [beValue_eq, Big.fromBytesBE_fixedBE, Int.toNat_of_nonneg hs.2.1]
  · obtain ⟨hr', h0, h1⟩ := hs
    rw [beValue_eq, Big.fromBytesBE_fixedBE, Int.toNat_of_nonneg h0, scalar_new_eq r hr, Int.emod_eq_of_lt h0 h1,
      ← hr']
  · intro t ht h
    rw [key t ht, R.ok.injEq] at h
    have := Big.fixedBE_inj h
    obtain ⟨hr', h0, h1⟩ := hs
    obtain ⟨hr'', h0', h1'⟩ := ht
    cases s; cases t
    simp only [Scalar.mk.injEq] at *
    exact ⟨by omega, by rw [hr', hr'']⟩

example : (Scalar.mk 8 300).toBytesBE = R.ok [0, 8] ∧ (Scalar.mk 8 300).toBytesLE = R.ok [8, 0] ∧
    CanonScalar 300 ⟨8, 300⟩ := by
  refine ⟨by decide +kernel, by decide +kernel, ⟨rfl, by decide, by decide⟩⟩

end Redox.Props
