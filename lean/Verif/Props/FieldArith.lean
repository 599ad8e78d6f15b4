import Mathlib.Tactic.NormNum.Prime
import Verif.Proofs.SqrtLink

/-!
# C01, C03–C07, C09: prime-field arithmetic

Statements are about `FpElt` programs only; the meaning of an element is the residue class `Spec.val p a : ZMod p`.
-/

namespace Redox.Props

open Spec

/-! ## C01 -/

/-- C01. `elt` reduces modulo `p`, and on elements made by `elt` the operators `+ - * neg ^2u32` are those of the
integers followed by `elt`. Nothing panics. -/
theorem C01_arith (p : ℕ) (hp : 1 ≤ p) (a b : ℤ) :
    (Fp.new p).elt a = R.ok ⟨a % p, ⟨p⟩⟩ ∧
    ∀ x y, (Fp.new p).elt a = R.ok x → (Fp.new p).elt b = R.ok y →
      x.add y = (Fp.new p).elt (a + b) ∧ x.sub y = (Fp.new p).elt (a - b) ∧
      x.mul y = (Fp.new p).elt (a * b) ∧ x.neg = (Fp.new p).elt (-a) ∧
      x.powU32 2 = (Fp.new p).elt (a * a) ∧
      (x = y ↔ (p : ℤ) ∣ a - b) ∧ (x.isZero = true ↔ (p : ℤ) ∣ a) := by
  haveI : NeZero p := ⟨by omega⟩
  refine ⟨by simp [Fp.new, el, cast_int_eq], ?_⟩
  intro x y hx hy
  simp only [Fp.new, elt_eq, R.ok.injEq] at hx hy
  subst hx hy
  refine ⟨by simp [Fp.new], by simp [Fp.new], by simp [Fp.new], by simp [Fp.new], by simp [Fp.new], ?_, ?_⟩
  · rw [el_inj, eq_comm, ZMod.intCast_eq_intCast_iff_dvd_sub]
  · rw [isZero_el_iff, ZMod.intCast_zmod_eq_zero_iff_dvd]

/-- C01 for arbitrary canonical elements: each operator computes the operation of `ZMod p` on the denoted classes. -/
theorem C01_ops (p : ℕ) (hp : 1 ≤ p) (x y : FpElt) (hx : Canon p x) (hy : Canon p y) :
    Returns p (x.add y) (val p x + val p y) ∧ Returns p (x.sub y) (val p x - val p y) ∧
    Returns p (x.mul y) (val p x * val p y) ∧ Returns p x.neg (-val p x) ∧
    Returns p (x.powU32 2) (val p x ^ 2) ∧ (x = y ↔ val p x = val p y) := by
  haveI : NeZero p := ⟨by omega⟩
  obtain ⟨x, rfl⟩ := canon_iff.1 hx
  obtain ⟨y, rfl⟩ := canon_iff.1 hy
  simp [returns_iff, pow_two]

/-- Non-vacuity: 5 + 4 = 2, 5 * 4 = 6 in GF(7). -/
example : Canon 7 ⟨5, ⟨7⟩⟩ ∧ Canon 7 ⟨4, ⟨7⟩⟩ ∧ (FpElt.mk 5 ⟨7⟩).add ⟨4, ⟨7⟩⟩ = R.ok ⟨2, ⟨7⟩⟩ ∧
    (FpElt.mk 5 ⟨7⟩).mul ⟨4, ⟨7⟩⟩ = R.ok ⟨6, ⟨7⟩⟩ ∧ (Fp.new 7).elt (-3) = R.ok ⟨4, ⟨7⟩⟩ := by
  refine ⟨⟨rfl, by decide, by decide⟩, ⟨rfl, by decide, by decide⟩, ?_, ?_, ?_⟩ <;> decide +kernel

/-! ## C03 -/

/-- C03. In a field of odd prime order, division by a nonzero element inverts multiplication; `1u32 / b` and
`b ^ -1i32` are the inverse. -/
theorem C03_div (p : ℕ) (hp : p.Prime) (h2 : p ≠ 2) (a b : FpElt) (ha : Canon p a) (hb : Canon p b)
    (hb0 : val p b ≠ 0) :
    (∃ q, a.div b = R.ok q ∧ Canon p q ∧ q.mul b = R.ok a) ∧
    (∃ i, FpElt.u32Div 1 b = R.ok i ∧ b.powI32 (-1) = R.ok i ∧ Canon p i ∧ i.mul b = (Fp.new p).one) := by
  haveI := Fact.mk hp
  haveI : Fact (2 < p) := ⟨by have := hp.two_le; omega⟩
  obtain ⟨a, rfl⟩ := canon_iff.1 ha
  obtain ⟨b, rfl⟩ := canon_iff.1 hb
  rw [val_el] at hb0
  refine ⟨⟨el (a / b), div_el a b, canon_el _, ?_⟩, ⟨el b⁻¹, u32Div_el b, ?_, canon_el _, ?_⟩⟩
  · simp [hb0]
  · simp [FpElt.powI32]
  · simp [Fp.new, hb0]

/-- C03, division by zero: for an odd prime it returns zero. -/
theorem C03_div_zero (p : ℕ) (hp : p.Prime) (h2 : p ≠ 2) (a b : FpElt) (ha : Canon p a) (hb : Canon p b)
    (hb0 : val p b = 0) :
    a.div b = (Fp.new p).zero ∧ FpElt.u32Div 1 b = (Fp.new p).zero := by
  haveI := Fact.mk hp
  haveI : Fact (2 < p) := ⟨by have := hp.two_le; omega⟩
  obtain ⟨a, rfl⟩ := canon_iff.1 ha
  obtain ⟨b, rfl⟩ := canon_iff.1 hb
  rw [val_el] at hb0
  subst hb0
  simp [Fp.new]

/-- C03, `p = 2`: division (also by zero) returns the numerator. -/
theorem C03_div_two (a b : FpElt) (ha : Canon 2 a) (hb : Canon 2 b) : a.div b = R.ok a := by
  haveI : Fact (1 < 2) := ⟨by omega⟩
  obtain ⟨a, rfl⟩ := canon_iff.1 ha
  obtain ⟨b, rfl⟩ := canon_iff.1 hb
  have h : (el b).invMod = R.ok (el (1 : ZMod 2)) := by
    rw [FpElt.invMod, el_f, powInt_el]; simp
  simp [FpElt.div, h]

/-- Non-vacuity: 3 / 5 = 2 in GF(7), and 5 / 0 = 0. -/
example : (FpElt.mk 3 ⟨7⟩).div ⟨5, ⟨7⟩⟩ = R.ok ⟨2, ⟨7⟩⟩ ∧ (FpElt.mk 5 ⟨7⟩).div ⟨0, ⟨7⟩⟩ = R.ok ⟨0, ⟨7⟩⟩ ∧
    (FpElt.mk 1 ⟨2⟩).div ⟨0, ⟨2⟩⟩ = R.ok ⟨1, ⟨2⟩⟩ ∧ val 7 ⟨5, ⟨7⟩⟩ ≠ 0 ∧ Nat.Prime 7 := by
  refine ⟨by decide +kernel, by decide +kernel, by decide +kernel, by decide, by norm_num⟩

/-! ## C04 -/

/-- C04. Binary operators on elements of different fields panic with "elements of different fields"; `/` needs the
divisor's modulus to be at least 2 to get as far as the check (modulus 0 and 1 panic in the inversion). -/
theorem C04_mix (x y : FpElt) (h : x.f ≠ y.f) :
    x.add y = R.panic .differentFields ∧ x.sub y = R.panic .differentFields ∧
    x.mul y = R.panic .differentFields ∧ (∃ why, x.div y = R.panic why) ∧
    (2 ≤ y.f.p → x.div y = R.panic .differentFields) := by
  have hb : (x.f == y.f) = false := by simpa using h
  have hred : ∀ i j : FpElt, ∀ n, i.red n = R.ok j → j.f = i.f := by
    intro i j n hi
    simp only [FpElt.red] at hi
    obtain ⟨a, _, h2⟩ := R.bind_eq_ok.1 hi
    simp only [R.pure_eq, R.ok.injEq] at h2
    subst h2; rfl
  have hinv : ∀ i, y.invMod = R.ok i → i.f = y.f := by
    intro i hi
    simp only [FpElt.invMod, FpElt.powInt] at hi
    obtain ⟨_, _, hi⟩ := R.bind_eq_ok.1 hi
    obtain ⟨_, _, hi⟩ := R.bind_eq_ok.1 hi
    simp only [FpElt.powNat] at hi
    obtain ⟨_, _, hi⟩ := R.bind_eq_ok.1 hi
    exact hred _ _ _ hi
  have hpan : ∀ i, y.invMod = R.ok i → x.div y = R.panic .differentFields := by
    intro i hi
    have : (x.f == i.f) = false := by rw [hinv i hi]; exact hb
    simp [FpElt.div, hi, FpElt.mul, this]
  refine ⟨by simp [FpElt.add, hb], by simp [FpElt.sub, hb], by simp [FpElt.mul, hb], ?_, ?_⟩
  · cases hi : y.invMod with
    | ok i => exact ⟨_, hpan i hi⟩
    | panic e => exact ⟨e, by simp [FpElt.div, hi]⟩
  · intro hp
    have : ∃ i, y.invMod = R.ok i := by
      have h1 : (y.f.p : ℤ) - 1 ≠ 0 := by omega
      have h2 : (y.f.p : ℤ) ≠ 0 := by omega
      have h3 : ¬ (Int.fmod ((y.f.p : ℤ) - 2) ((y.f.p : ℤ) - 1) < 0) := by
        have := Int.fmod_nonneg (a := (y.f.p : ℤ) - 2) (b := (y.f.p : ℤ) - 1) (by omega) (by omega); omega
      have h4 : ¬ (((Int.fmod ((y.f.p : ℤ) - 2) ((y.f.p : ℤ) - 1)).toNat : ℤ) < 0) := by omega
      have h5 : y.f.p ≠ 0 := by omega
      simp [FpElt.invMod, FpElt.powInt, Big.modFloor, h1, Big.toBiguint, h3, FpElt.powNat, Big.modpow, h5,
        FpElt.red]
    obtain ⟨i, hi⟩ := this
    exact hpan i hi

/-- C04, positive part: inside one field nothing panics (`+ - *` for every modulus from 1, `/` from 2). -/
theorem C04_same (p : ℕ) (hp : 1 ≤ p) (x y : FpElt) (hx : Canon p x) (hy : Canon p y) :
    (∃ z, x.add y = R.ok z) ∧ (∃ z, x.sub y = R.ok z) ∧ (∃ z, x.mul y = R.ok z) ∧
    (2 ≤ p → ∃ z, x.div y = R.ok z) := by
  haveI : NeZero p := ⟨by omega⟩
  obtain ⟨x, rfl⟩ := canon_iff.1 hx
  obtain ⟨y, rfl⟩ := canon_iff.1 hy
  refine ⟨⟨_, add_el _ _⟩, ⟨_, sub_el _ _⟩, ⟨_, mul_el _ _⟩, fun h2 => ?_⟩
  haveI : Fact (1 < p) := ⟨h2⟩
  rw [FpElt.div, FpElt.invMod, el_f, powInt_el]
  exact ⟨_, mul_el _ _⟩

example : (FpElt.mk 3 ⟨7⟩).add ⟨3, ⟨11⟩⟩ = R.panic .differentFields ∧
    (FpElt.mk 3 ⟨7⟩).div ⟨3, ⟨11⟩⟩ = R.panic .differentFields := by
  constructor <;> decide +kernel

/-! ## C05 -/

/-- C05, natural exponents: `x ^ &BigUint` is the power, for every modulus `p ≥ 1` (`0 ^ 0 = 1`). -/
theorem C05_pow_nat (p : ℕ) (hp : 1 ≤ p) (x : FpElt) (hx : Canon p x) (e : ℕ) :
    Returns p (x.powNat e) (val p x ^ e) := by
  haveI : NeZero p := ⟨by omega⟩
  obtain ⟨x, rfl⟩ := canon_iff.1 hx
  simp [returns_iff]

/-- C05, integer exponents, nonzero base: `x ^ &BigInt` is the power, negative exponents included.
Partial: the claim is false for the zero base, see `C05_zero_base` and `C05_refuted`. -/
theorem C05_pow_int_partial (p : ℕ) (hp : p.Prime) (x : FpElt) (hx : Canon p x) (e : ℤ) :
    haveI := Fact.mk hp
    val p x ≠ 0 → Returns p (x.powInt e) (val p x ^ e) := by
  haveI := Fact.mk hp
  intro hx0
  obtain ⟨x, rfl⟩ := canon_iff.1 hx
  rw [val_el] at hx0 ⊢
  rw [returns_iff, powInt_el]
  congr 2
  have hp1 := hp.one_lt
  have h0 : (0 : ℤ) ≤ e % ((p : ℤ) - 1) := Int.emod_nonneg _ (by omega)
  rw [← zpow_natCast, Int.toNat_of_nonneg h0]
  conv_rhs => rw [← Int.emod_add_mul_ediv e ((p : ℤ) - 1)]
  rw [zpow_add₀ hx0, zpow_mul]
  have h1 : x ^ ((p : ℤ) - 1) = 1 := by
    have := ZMod.pow_card_sub_one_eq_one hx0
    rw [← zpow_natCast, Nat.cast_sub hp.one_le] at this
    simpa using this
  rw [h1, one_zpow, mul_one]

/-- C05, zero base, exactly: `0 ^ &BigInt e` is 1 when `p - 1` divides `e` and 0 otherwise. -/
theorem C05_zero_base (p : ℕ) (hp : 2 ≤ p) (x : FpElt) (hx : Canon p x) (hx0 : val p x = 0) (e : ℤ) :
    Returns p (x.powInt e) (if ((p : ℤ) - 1) ∣ e then 1 else 0) := by
  haveI : Fact (1 < p) := ⟨hp⟩
  obtain ⟨x, rfl⟩ := canon_iff.1 hx
  rw [val_el] at hx0
  subst hx0
  rw [returns_iff, powInt_el]
  have h0 : (0 : ℤ) ≤ e % ((p : ℤ) - 1) := Int.emod_nonneg _ (by omega)
  split_ifs with h
  · rw [Int.emod_eq_zero_of_dvd h]; simp
  · rw [zero_pow]
    intro h'
    exact h (Int.dvd_of_emod_eq_zero (by omega))

/-- C05 is refuted for the zero base: for *every* modulus `p ≥ 2` there is a positive exponent `e` (namely `p - 1`)
with `0 ^ &BigInt e = 1`, while `0 ^ &BigUint e = 0`. -/
theorem C05_refuted (p : ℕ) (hp : 2 ≤ p) : ∃ e : ℕ, 0 < e ∧ ∀ z, (Fp.new p).zero = R.ok z →
    z.powInt e = (Fp.new p).one ∧ z.powNat e = (Fp.new p).zero := by
  haveI : Fact (1 < p) := ⟨hp⟩
  refine ⟨p - 1, by omega, fun z hz => ?_⟩
  simp only [Fp.new, zero_eq, R.ok.injEq] at hz
  subst hz
  have h := C05_zero_base p hp (el (0 : ZMod p)) (canon_el _) (val_el _) ((p - 1 : ℕ) : ℤ)
  rw [if_pos (by rw [Nat.cast_sub (by omega)]; simp), returns_iff] at h
  refine ⟨by rw [h]; simp [Fp.new], ?_⟩
  rw [powNat_el, zero_pow (by omega)]; simp [Fp.new]

example : (FpElt.mk 3 ⟨7⟩).powInt (-2) = R.ok ⟨4, ⟨7⟩⟩ ∧ (FpElt.mk 3 ⟨7⟩).powNat 100 = R.ok ⟨4, ⟨7⟩⟩ ∧
    (FpElt.mk 0 ⟨7⟩).powInt 6 = R.ok ⟨1, ⟨7⟩⟩ := by
  refine ⟨?_, ?_, ?_⟩ <;> decide +kernel

/-! ## C06 -/

/-- C06. `is_square` never panics and decides whether the element has a square root in the field. -/
theorem C06_is_square (p : ℕ) (hp : p.Prime) (h2 : p ≠ 2) (x : FpElt) (hx : Canon p x) :
    ∃ b, x.isSquare = R.ok b ∧ (b = true ↔ ∃ y, Canon p y ∧ y.mul y = R.ok x) := by
  haveI := Fact.mk hp
  haveI : Fact (2 < p) := ⟨by have := hp.two_le; omega⟩
  obtain ⟨x, rfl⟩ := canon_iff.1 hx
  refine ⟨_, isSquare_el x, ?_⟩
  rw [decide_eq_true_iff]
  constructor
  · rintro ⟨r, rfl⟩; exact ⟨el r, canon_el _, mul_el _ _⟩
  · rintro ⟨y, hy, h⟩
    obtain ⟨y, rfl⟩ := canon_iff.1 hy
    rw [mul_el, R.ok.injEq, el_inj] at h
    exact ⟨y, h.symm⟩

example : (FpElt.mk 2 ⟨7⟩).isSquare = R.ok true ∧ (FpElt.mk 3 ⟨7⟩).isSquare = R.ok false ∧
    (FpElt.mk 0 ⟨7⟩).isSquare = R.ok true := by
  refine ⟨?_, ?_, ?_⟩ <;> decide +kernel

/-! ## C07 -/

/-- C07. For primes `p ≡ 3 (mod 4)` or `p ≡ 5 (mod 8)`, `sqrt` always returns an element of the field, and its square
is the argument exactly when the argument is a square. -/
theorem C07_sqrt (p : ℕ) (hp : p.Prime) (h : p % 4 = 3 ∨ p % 8 = 5) (x : FpElt) (hx : Canon p x) :
    ∃ y, x.sqrt = R.ok y ∧ Canon p y ∧ ((∃ w, Canon p w ∧ w.mul w = R.ok x) ↔ y.mul y = R.ok x) := by
  haveI := Fact.mk hp
  obtain ⟨x, rfl⟩ := canon_iff.1 hx
  refine ⟨_, sqrt_el h x, canon_el _, ?_⟩
  constructor
  · rintro ⟨w, hw, h'⟩
    obtain ⟨w, rfl⟩ := canon_iff.1 hw
    rw [mul_el, R.ok.injEq, el_inj] at h'
    rw [mul_el, sqrtZ_sq h ⟨w, h'.symm⟩]
  · intro h'; exact ⟨_, canon_el _, h'⟩

/-- C07, the unimplemented residues: for `p ≡ 1 (mod 8)` (and for even `p`) `sqrt` panics on every element. -/
theorem C07_sqrt_unimplemented (p : ℕ) (h : p % 8 = 1 ∨ p % 2 = 0) (x : FpElt) (hx : Canon p x) :
    x.sqrt = R.panic .unimplemented := by
  obtain ⟨hf, -, -⟩ := hx
  have h1 : ¬ (3 = p % 4) := by omega
  have h2 : ¬ (5 = p % 8) := by omega
  by_cases h3 : 9 = p % 16
  · simp [FpElt.sqrt, hf, Fp.calcSqrtPrecmp, h1, h2, h3, FpElt.sqrtWith]
  · simp [FpElt.sqrt, hf, Fp.calcSqrtPrecmp, h1, h2, h3, FpElt.sqrtWith]

example : (FpElt.mk 2 ⟨7⟩).sqrt = R.ok ⟨4, ⟨7⟩⟩ ∧ (FpElt.mk 3 ⟨13⟩).sqrt = R.ok ⟨9, ⟨13⟩⟩ ∧
    (FpElt.mk 4 ⟨17⟩).sqrt = R.panic .unimplemented := by
  refine ⟨?_, ?_, ?_⟩ <;> decide +kernel

/-! ## C09 -/

/-- C09. `sgn0` is `1` on even and `-1` on odd canonical representatives; it is `1` at zero and, for odd `p`, flips
under negation of nonzero elements. -/
theorem C09_sgn0 (p : ℕ) (hp : p % 2 = 1) (x : FpElt) (hx : Canon p x) :
    (x.sgn0 = 1 ∨ x.sgn0 = -1) ∧ (x.sgn0 = -1 ↔ x.n % 2 = 1) ∧ (x.n = 0 → x.sgn0 = 1) ∧
    (x.n ≠ 0 → ∃ y, x.neg = R.ok y ∧ y.sgn0 = -x.sgn0) := by
  obtain ⟨hf, h0, h1⟩ := hx
  have hs : ∀ a : FpElt, 0 ≤ a.n → a.sgn0 = 1 - 2 * (a.n % 2) := by
    intro a ha; rw [FpElt.sgn0, Int.tmod_eq_emod_of_nonneg ha]
  rw [hs x h0]
  refine ⟨by omega, by omega, by omega, fun hn => ?_⟩
  have hp0 : (x.f.p : ℤ) ≠ 0 := by rw [hf]; simp only; omega
  have hmod : Int.fmod (-x.n) (x.f.p : ℤ) = p - x.n := by
    rw [hf, Int.fmod_eq_emod_of_nonneg _ (by positivity), ← Int.add_emod_right]
    rw [Int.emod_eq_of_lt] <;> simp only <;> omega
  refine ⟨⟨p - x.n, x.f⟩, ?_, ?_⟩
  · simp only [FpElt.neg, FpElt.red, Big.modFloor, if_neg hp0, hmod, R.ok_bind, R.pure_eq]
  · rw [hs _ (by simp only; omega)]; simp only; omega

example : Canon 7 ⟨3, ⟨7⟩⟩ ∧ (FpElt.mk 3 ⟨7⟩).sgn0 = -1 ∧ (FpElt.mk 4 ⟨7⟩).sgn0 = 1 := by
  refine ⟨⟨rfl, by decide, by decide⟩, ?_, ?_⟩ <;> decide +kernel

end Redox.Props
