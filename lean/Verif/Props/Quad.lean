import Verif.Proofs.SqrtLink
import Verif.Spec.QuadField
import Verif.Props.FieldBytes
import Mathlib.Tactic.NormNum.Prime

/-!
# C13–C18: the quadratic extension
-/

namespace Redox.Props

open Spec
open scoped QuadraticAlgebra

/-- The canonical element of the extension denoting `z`. -/
def el2 {p : ℕ} (z : GFp2 p) : Fp2Elt := ⟨el z.re, el z.im, ⟨⟨p⟩⟩⟩

theorem canon2_iff {p : ℕ} [NeZero p] {a : Fp2Elt} : Canon2 p a ↔ ∃ z : GFp2 p, a = el2 z := by
  constructor
  · rintro ⟨hf, h0, h1⟩
    refine ⟨val2 p a, ?_⟩
    cases a
    simp only at hf h0 h1
    subst hf
    simp only [el2, val2]
    rw [← h0.eq_el, ← h1.eq_el]
  · rintro ⟨z, rfl⟩; exact ⟨rfl, canon_el _, canon_el _⟩

theorem val2_el2 {p : ℕ} [NeZero p] (z : GFp2 p) : val2 p (el2 z) = z := by simp [val2, el2]

theorem returns2_iff {p : ℕ} [NeZero p] {r : R Fp2Elt} {v : GFp2 p} : Returns2 p r v ↔ r = R.ok (el2 v) := by
  constructor
  · rintro ⟨c, rfl, hc, rfl⟩
    obtain ⟨z, rfl⟩ := canon2_iff.1 hc
    rw [val2_el2]
  · rintro rfl; exact ⟨_, rfl, canon2_iff.2 ⟨v, rfl⟩, val2_el2 v⟩

theorem el2_inj {p : ℕ} [NeZero p] {a b : GFp2 p} : el2 a = el2 b ↔ a = b :=
  ⟨fun h => by have := congrArg (val2 p) h; simpa [val2_el2] using this, fun h => by rw [h]⟩

/-! ## C13 -/

/-- C13. `+ - * neg ^2u32` on the extension are the operations of `(ℤ/p)[i]`, `i² = -1` (a commutative ring, so all ring
laws hold); nothing panics; equality is equality of values. -/
theorem C13_ring (p : ℕ) (hp : 1 ≤ p) (x y : Fp2Elt) (hx : Canon2 p x) (hy : Canon2 p y) :
    Returns2 p (x.add y) (val2 p x + val2 p y) ∧ Returns2 p (x.sub y) (val2 p x - val2 p y) ∧
    Returns2 p (x.mul y) (val2 p x * val2 p y) ∧ Returns2 p x.neg (-val2 p x) ∧
    Returns2 p (x.powU32 2) (val2 p x ^ 2) ∧ (x = y ↔ val2 p x = val2 p y) := by
  haveI : NeZero p := ⟨by omega⟩
  obtain ⟨x, rfl⟩ := canon2_iff.1 hx
  obtain ⟨y, rfl⟩ := canon2_iff.1 hy
  simp only [val2_el2, returns2_iff, el2_inj, and_true]
  refine ⟨?_, ?_, ?_, ?_, ?_⟩
  · simp [Fp2Elt.add, el2, Fp2Elt.elt]
  · simp [Fp2Elt.sub, el2, Fp2Elt.elt]
  · simp [Fp2Elt.mul, el2, Fp2Elt.elt, sub_eq_add_neg]
  · simp [Fp2Elt.neg, el2, Fp2Elt.elt]
  · simp [Fp2Elt.powU32, Fp2Elt.mul, el2, Fp2Elt.elt, sub_eq_add_neg, pow_two]

/-- C13, constants: `elt n` denotes the integer `n`, and the element `0 + 1·i` squares to `-1`. -/
theorem C13_elt (p : ℕ) (hp : 1 ≤ p) (n : ℤ) :
    Returns2 p ((Fp2.new p).elt n) (n : GFp2 p) ∧ Returns2 p (Fp2.new p).zero 0 ∧ Returns2 p (Fp2.new p).one 1 ∧
    ∀ o z, (Fp.new p).one = R.ok o → (Fp.new p).zero = R.ok z →
      Returns2 p ((Fp2Elt.mk z o ⟨⟨p⟩⟩).mul ⟨z, o, ⟨⟨p⟩⟩⟩) (-1) := by
  haveI : NeZero p := ⟨by omega⟩
  have h : ∀ n : ℤ, Returns2 p ((Fp2.new p).elt n) (n : GFp2 p) := by
    intro n; rw [returns2_iff]; simp [Fp2.elt, Fp2.new, Fp.new, el2]
  refine ⟨h n, by simpa [Fp2.zero] using h 0, by simpa [Fp2.one] using h 1, ?_⟩
  intro o z ho hz
  simp only [Fp.new, one_eq, zero_eq, R.ok.injEq] at ho hz
  subst ho hz
  rw [returns2_iff]
  simp [Fp2Elt.mul, el2, Fp2Elt.elt]

/-- C13, mixing: binary operators on elements of different extensions panic. -/
theorem C13_mix (x y : Fp2Elt) (h : x.f ≠ y.f) :
    x.add y = R.panic .differentFields ∧ x.sub y = R.panic .differentFields ∧ x.mul y = R.panic .differentFields := by
  have hb : (x.f == y.f) = false := by simpa using h
  simp [Fp2Elt.add, Fp2Elt.sub, Fp2Elt.mul, hb]

example : Canon2 7 ⟨⟨3, ⟨7⟩⟩, ⟨5, ⟨7⟩⟩, ⟨⟨7⟩⟩⟩ ∧
    (Fp2Elt.mk ⟨3, ⟨7⟩⟩ ⟨5, ⟨7⟩⟩ ⟨⟨7⟩⟩).mul ⟨⟨3, ⟨7⟩⟩, ⟨5, ⟨7⟩⟩, ⟨⟨7⟩⟩⟩ = R.ok ⟨⟨5, ⟨7⟩⟩, ⟨2, ⟨7⟩⟩, ⟨⟨7⟩⟩⟩ := by
  refine ⟨⟨rfl, ⟨rfl, by decide, by decide⟩, ⟨rfl, by decide, by decide⟩⟩, by decide +kernel⟩

/-! ## C14 -/

section
variable {p : ℕ} [Fact p.Prime]

theorem neg_one_not_square (h : p % 4 = 3) : ¬ IsSquare (-1 : ZMod p) := by
  rw [ZMod.exists_sq_eq_neg_one_iff]; omega

theorem norm_ne_zero (h : p % 4 = 3) {a b : ZMod p} (hab : a ≠ 0 ∨ b ≠ 0) : a * a + b * b ≠ 0 := by
  intro h0
  have hb : b ≠ 0 := by
    rintro rfl
    rcases hab with h | h
    · simp at h0; exact h h0
    · exact h rfl
  refine neg_one_not_square h ⟨a / b, ?_⟩
  field_simp
  linear_combination -h0

end

/-- What `1u32 / x` computes: `x / (n0² + n1²)`, i.e. the inverse of the *conjugate*. -/
theorem inv_returns (p : ℕ) [Fact p.Prime] (h : p % 4 = 3) (x : GFp2 p) :
    Fp2Elt.u32Div 1 (el2 x) =
      R.ok (el2 ⟨(x.re * x.re + x.im * x.im)⁻¹ * x.re, (x.re * x.re + x.im * x.im)⁻¹ * x.im⟩) := by
  haveI : Fact (2 < p) := ⟨by omega⟩
  simp [Fp2Elt.u32Div, Fp2Elt.invMod, el2, Fp2Elt.elt]

/-- C14, exactly: for nonzero `x`, `1u32 / x` never panics, and it is the inverse of `x` if and only if `x` has no
imaginary part. Partial: the property claims it for every nonzero `x`; see `C14_refuted`. -/
theorem C14_inv_partial (p : ℕ) (hp : p.Prime) (h : p % 4 = 3) (x : Fp2Elt) (hx : Canon2 p x) (hx0 : val2 p x ≠ 0) :
    ∃ y, Fp2Elt.u32Div 1 x = R.ok y ∧ Canon2 p y ∧ (x.mul y = (Fp2.new p).one ↔ x.n1.n = 0) := by
  haveI := Fact.mk hp
  haveI : Fact (2 < p) := ⟨by omega⟩
  obtain ⟨x, rfl⟩ := canon2_iff.1 hx
  rw [val2_el2] at hx0
  refine ⟨_, inv_returns p h x, canon2_iff.2 ⟨_, rfl⟩, ?_⟩
  have hN : x.re * x.re + x.im * x.im ≠ 0 := norm_ne_zero h (by
    by_contra hc
    push Not at hc
    exact hx0 (QuadraticAlgebra.ext hc.1 hc.2))
  have hmul := (C13_ring p (by omega) (el2 x) (el2 ⟨(x.re * x.re + x.im * x.im)⁻¹ * x.re,
    (x.re * x.re + x.im * x.im)⁻¹ * x.im⟩) (canon2_iff.2 ⟨_, rfl⟩) (canon2_iff.2 ⟨_, rfl⟩)).2.2.1
  rw [val2_el2, val2_el2, returns2_iff] at hmul
  have hone := returns2_iff.1 (C13_elt p (by omega) 0).2.2.1
  rw [hmul, hone, R.ok.injEq, el2_inj, QuadraticAlgebra.ext_iff]
  have h2 : (2 : ZMod p) ≠ 0 := by
    have : ((2 : ℕ) : ZMod p) ≠ 0 := by
      rw [Ne, ZMod.natCast_eq_zero_iff]
      intro hd; have := Nat.le_of_dvd (by omega) hd; omega
    simpa using this
  have hz : (el2 x).n1.n = 0 ↔ x.im = 0 := by
    have := isZero_el_iff x.im
    simpa [FpElt.isZero, el2] using this
  rw [hz]
  simp only [QuadraticAlgebra.re_mul, QuadraticAlgebra.im_mul]
  constructor
  · rintro ⟨h1, -⟩
    change _ = (1 : ZMod p) at h1
    have : 2 * (x.im * x.im) = 0 := by
      have hN' : x.re ^ 2 + x.im ^ 2 ≠ 0 := by simpa [pow_two] using hN
      field_simp at h1
      linear_combination -h1
    simpa [h2] using this
  · intro hi
    rw [hi] at hN ⊢
    change _ = (1 : ZMod p) ∧ _ = (0 : ZMod p)
    constructor
    · simp at hN ⊢; field_simp
    · ring

/-- C14 is refuted for every prime `p ≡ 3 (mod 4)`: for `x = i`, `x * (1u32 / x)` is `-1`, not `1`. -/
theorem C14_refuted (p : ℕ) (hp : p.Prime) (h : p % 4 = 3) :
    ∃ x y, Canon2 p x ∧ val2 p x ≠ 0 ∧ Fp2Elt.u32Div 1 x = R.ok y ∧ Returns2 p (x.mul y) (-1) ∧
      x.mul y ≠ (Fp2.new p).one := by
  haveI := Fact.mk hp
  haveI : Fact (2 < p) := ⟨by omega⟩
  have hinv := inv_returns p h ⟨0, 1⟩
  refine ⟨el2 ⟨0, 1⟩, _, canon2_iff.2 ⟨_, rfl⟩, ?_, hinv, ?_, ?_⟩
  · rw [val2_el2, Ne, QuadraticAlgebra.ext_iff]; simp
  · rw [returns2_iff]; simp [Fp2Elt.mul, el2, Fp2Elt.elt]
  · have := C14_inv_partial p hp h (el2 ⟨0, 1⟩) (canon2_iff.2 ⟨_, rfl⟩)
      (by rw [val2_el2, Ne, QuadraticAlgebra.ext_iff]; simp)
    obtain ⟨y, hy, -, hiff⟩ := this
    rw [hinv, R.ok.injEq] at hy
    rw [hy, Ne, hiff]
    simp [el2, cast_one_int]

example : Fp2Elt.u32Div 1 ⟨⟨3, ⟨7⟩⟩, ⟨5, ⟨7⟩⟩, ⟨⟨7⟩⟩⟩ = R.ok ⟨⟨4, ⟨7⟩⟩, ⟨2, ⟨7⟩⟩, ⟨⟨7⟩⟩⟩ ∧
    (Fp2Elt.mk ⟨3, ⟨7⟩⟩ ⟨5, ⟨7⟩⟩ ⟨⟨7⟩⟩).mul ⟨⟨4, ⟨7⟩⟩, ⟨2, ⟨7⟩⟩, ⟨⟨7⟩⟩⟩ = R.ok ⟨⟨2, ⟨7⟩⟩, ⟨5, ⟨7⟩⟩, ⟨⟨7⟩⟩⟩ := by
  constructor <;> decide +kernel

/-! ## C15 -/

/-- C15 is refuted: `^ &BigUint` panics for every element and every exponent (also 0 and 1), and so does `sqrt` for
every element of every field. -/
theorem C15_refuted (x : Fp2Elt) :
    (∀ e : ℕ, x.powNat e = R.panic .unimplemented) ∧ (∀ e : ℤ, ∃ why, x.powInt e = R.panic why) ∧
    ∃ why, x.sqrt = R.panic why := by
  have h1 : ∀ e : ℕ, x.powNat e = R.panic .unimplemented := by
    intro e; simp [Fp2Elt.powNat, Fp2Elt.staticOne]
  have h2 : ∀ e : ℤ, ∃ why, x.powInt e = R.panic why := by
    intro e
    by_cases he : e < 0
    · exact ⟨.unwrapNone, by simp [Fp2Elt.powInt, Big.toBiguint, he]⟩
    · exact ⟨.unimplemented, by simp [Fp2Elt.powInt, Big.toBiguint, he, h1]⟩
  refine ⟨h1, h2, ?_⟩
  unfold Fp2Elt.sqrt
  cases hc : x.f.calcSqrtPrecmp with
  | panic e => exact ⟨e, rfl⟩
  | ok c =>
    obtain ⟨w, hw⟩ := h2 c.1
    exact ⟨w, by simp [hw]⟩

/-- C15, what does work: `x ^ 2u32` and `x ^ -1i32` are accepted, every other literal exponent panics. -/
theorem C15_small_exponents_partial (x : Fp2Elt) :
    x.powU32 2 = x.mul x ∧ x.powI32 (-1) = x.invMod ∧
    (∀ e, e ≠ 2 → x.powU32 e = R.panic .expSqr) ∧ (∀ e, e ≠ -1 → x.powI32 e = R.panic .expInv) := by
  refine ⟨by simp [Fp2Elt.powU32], by simp [Fp2Elt.powI32], ?_, ?_⟩
  · intro e he
    have h : (e == 2) = false := by simpa using he
    simp [Fp2Elt.powU32, h]
  · intro e he
    have h : (e == -1) = false := by simpa using he
    simp [Fp2Elt.powI32, h]

/-! ## C16 -/

section
variable {p : ℕ} [Fact p.Prime]

theorem two_ne_zero_of_odd (h : p % 4 = 3) : (2 : ZMod p) ≠ 0 := by
  have : ((2 : ℕ) : ZMod p) ≠ 0 := by
    rw [Ne, ZMod.natCast_eq_zero_iff]
    intro hd; have := Nat.le_of_dvd (by omega) hd; omega
  simpa using this

theorem isSquare_or_neg (h : p % 4 = 3) (a : ZMod p) : IsSquare a ∨ IsSquare (-a) := by
  have hp2 : p ≠ 2 := by omega
  by_cases ha : a = 0
  · left; exact ⟨0, by simp [ha]⟩
  · have e1 := ZMod.euler_criterion p ha
    have e2 := ZMod.euler_criterion p (neg_ne_zero.2 ha)
    rcases ZMod.pow_div_two_eq_neg_one_or_one p ha with h1 | h1
    · exact Or.inl (e1.2 h1)
    · right
      rw [e2, neg_pow, h1]
      have : Odd (p / 2) := by rw [Nat.odd_iff]; omega
      rw [this.neg_one_pow]; ring

theorem isSquare_quad_iff (h : p % 4 = 3) (x : GFp2 p) :
    IsSquare x ↔ IsSquare (x.re * x.re + x.im * x.im) := by
  have h2 := two_ne_zero_of_odd h
  constructor
  · rintro ⟨y, rfl⟩
    refine ⟨y.re * y.re + y.im * y.im, ?_⟩
    simp only [QuadraticAlgebra.re_mul, QuadraticAlgebra.im_mul]
    ring
  · rintro ⟨s, hs⟩
    obtain ⟨a, b⟩ := x
    simp only at hs
    by_cases hb : b = 0
    · subst hb
      rcases isSquare_or_neg h a with ⟨r, hr⟩ | ⟨r, hr⟩
      · exact ⟨⟨r, 0⟩, by ext <;> simp [hr]⟩
      · refine ⟨⟨0, r⟩, ?_⟩
        ext
        · simp only [QuadraticAlgebra.re_mul]; linear_combination -hr
        · simp
    · have key : ∀ s : ZMod p, a * a + b * b = s * s → IsSquare ((a + s) / 2) → IsSquare (⟨a, b⟩ : GFp2 p) := by
        rintro s hs ⟨u, hu⟩
        have hus : a + s = 2 * (u * u) := by
          rw [div_eq_iff h2] at hu; linear_combination hu
        have hu0 : u ≠ 0 := by
          rintro rfl
          have has : s = -a := by linear_combination hus
          rw [has] at hs
          have : b * b = 0 := by linear_combination hs
          exact hb (by simpa using this)
        refine ⟨⟨u, b / (2 * u)⟩, ?_⟩
        ext
        · simp only [QuadraticAlgebra.re_mul]
          field_simp
          have hs' : s = 2 * (u * u) - a := by linear_combination hus
          rw [hs'] at hs
          linear_combination hs
        · simp only [QuadraticAlgebra.im_mul]
          field_simp
          ring
      rcases isSquare_or_neg h ((a + s) / 2) with h1 | ⟨r, hr⟩
      · exact key s hs h1
      · refine key (-s) (by rw [hs]; ring) ?_
        have hr' : a + s = -(2 * (r * r)) := by
          rw [← neg_div, div_eq_iff h2] at hr; linear_combination -hr
        have hr0 : r ≠ 0 := by
          rintro rfl
          have has : s = -a := by linear_combination hr'
          rw [has] at hs
          have : b * b = 0 := by linear_combination hs
          exact hb (by simpa using this)
        refine ⟨b / (2 * r), ?_⟩
        field_simp
        have hs' : s = -(2 * (r * r)) - a := by linear_combination hr'
        rw [hs'] at hs ⊢
        linear_combination -hs

end

/-- C16, nonzero elements: `is_square` decides squareness in GF(p²).
Partial: at zero it answers `false`, see `C16_refuted`. -/
theorem C16_is_square_partial (p : ℕ) (hp : p.Prime) (h : p % 4 = 3) (x : Fp2Elt) (hx : Canon2 p x)
    (hx0 : val2 p x ≠ 0) :
    ∃ b, x.isSquare = R.ok b ∧ (b = true ↔ ∃ y, Canon2 p y ∧ y.mul y = R.ok x) := by
  haveI := Fact.mk hp
  haveI : Fact (2 < p) := ⟨by omega⟩
  obtain ⟨x, rfl⟩ := canon2_iff.1 hx
  rw [val2_el2] at hx0
  have hN : x.re * x.re + x.im * x.im ≠ 0 := norm_ne_zero h (by
    by_contra hc
    push Not at hc
    exact hx0 (QuadraticAlgebra.ext hc.1 hc.2))
  have h3 : ((((p : ℤ) - 1) / 2) % ((p : ℤ) - 1)).toNat = p / 2 := by
    rw [Int.emod_eq_of_lt (by omega) (by omega)]; omega
  have hsq : (el2 x).isSquare = R.ok (decide ((x.re * x.re + x.im * x.im) ^ (p / 2) = 1)) := by
    have hmod : (Fp2.mk ⟨p⟩).getModulus = (p : ℤ) := rfl
    simp [Fp2Elt.isSquare, hmod, powInt_el, h3, el2]
  refine ⟨_, hsq, ?_⟩
  rw [decide_eq_true_iff, ← ZMod.euler_criterion p hN, ← isSquare_quad_iff h]
  have hmul : ∀ y : GFp2 p, (el2 y).mul (el2 y) = R.ok (el2 (y * y)) := fun y => by
    have := (C13_ring p (by omega) (el2 y) (el2 y) (canon2_iff.2 ⟨_, rfl⟩) (canon2_iff.2 ⟨_, rfl⟩)).2.2.1
    rwa [val2_el2, returns2_iff] at this
  constructor
  · rintro ⟨y, rfl⟩
    exact ⟨el2 y, canon2_iff.2 ⟨_, rfl⟩, hmul y⟩
  · rintro ⟨y, hy, hyy⟩
    obtain ⟨y, rfl⟩ := canon2_iff.1 hy
    rw [hmul, R.ok.injEq, el2_inj] at hyy
    exact ⟨y, hyy.symm⟩

/-- C16 is refuted at zero, in every field of odd modulus: `0 = 0 * 0` but `is_square` answers `false`. -/
theorem C16_refuted (p : ℕ) (hp : 3 ≤ p) :
    ∃ z, (Fp2.new p).zero = R.ok z ∧ z.mul z = R.ok z ∧ z.isSquare = R.ok false := by
  haveI : Fact (1 < p) := ⟨by omega⟩
  have hz := returns2_iff.1 (C13_elt p (by omega) 0).2.1
  refine ⟨_, hz, ?_, ?_⟩
  · simp [Fp2Elt.mul, el2, Fp2Elt.elt]
  · have hmod : (Fp2.mk ⟨p⟩).getModulus = (p : ℤ) := rfl
    have h3 : ((((p : ℤ) - 1) / 2) % ((p : ℤ) - 1)).toNat ≠ 0 := by
      rw [Int.emod_eq_of_lt (by omega) (by omega)]; omega
    have h1 : ¬ ((0 : ZMod p) = 1) := by
      intro h; exact (zero_ne_one : (0 : ZMod p) ≠ 1) h
    simp [Fp2Elt.isSquare, hmod, powInt_el, el2, zero_pow h3, h1]

example : (Fp2Elt.mk ⟨3, ⟨7⟩⟩ ⟨5, ⟨7⟩⟩ ⟨⟨7⟩⟩).isSquare = R.ok false ∧
    (Fp2Elt.mk ⟨5, ⟨7⟩⟩ ⟨2, ⟨7⟩⟩ ⟨⟨7⟩⟩).isSquare = R.ok true ∧ Nat.Prime 7 ∧ 7 % 4 = 3 := by
  refine ⟨by decide +kernel, by decide +kernel, by norm_num, rfl⟩

/-! ## C17 -/

/-- C17. Serialization has fixed length `size_bytes()`, round-trips in both byte orders; other lengths give `Err`. -/
theorem C17_bytes (p : ℕ) (hp : 1 ≤ p) (x : Fp2Elt) (hx : Canon2 p x) :
    (∃ bs, x.toBytesBE = R.ok bs ∧ bs.length = (Fp2.new p).sizeBytes ∧ (Fp2.new p).fromBytesBE bs = R.ok (some x)) ∧
    (∃ bs, x.toBytesLE = R.ok bs ∧ bs.length = (Fp2.new p).sizeBytes ∧ (Fp2.new p).fromBytesLE bs = R.ok (some x)) := by
  obtain ⟨hf, h0, h1⟩ := hx
  obtain ⟨b0, e0, l0, -, le0, r0, rl0, -⟩ := C10_serialize p hp x.n0 h0
  obtain ⟨b1, e1, l1, -, le1, r1, rl1, -⟩ := C10_serialize p hp x.n1 h1
  have hsz : (Fp2.new p).sizeBytes = 2 * (Fp.new p).sizeBytes := rfl
  have hbase : (Fp2.new p).base = Fp.new p := rfl
  have hfeq : (Fp2.new p) = x.f := by rw [hf]; rfl
  have hx : (Fp2Elt.mk x.n0 x.n1 (Fp2.new p)) = x := by rw [hfeq]
  constructor
  · refine ⟨b0 ++ b1, by simp [Fp2Elt.toBytesBE, e0, e1], by simp [l0, l1, hsz]; omega, ?_⟩
    have hl : ¬ ((Fp2.new p).sizeBytes ≠ (b0 ++ b1).length) := by simp [l0, l1, hsz]; omega
    have hs : (Fp2.new p).sizeBytes / 2 = b0.length := by rw [hsz, l0]; omega
    have hs1 : slice (b0 ++ b1) 0 b0.length = R.ok b0 := by simp [slice]
    have hs2 : slice (b0 ++ b1) b0.length (2 * b0.length) = R.ok b1 := by
      have : 2 * b0.length = (b0 ++ b1).length := by simp [l0, l1]; omega
      rw [this, slice, if_pos (by simp), List.take_length, List.drop_left]
    simp only [Fp2.fromBytesBE, if_neg hl, hs, hs1, hs2, hbase, R.ok_bind, r0, r1, R.pure_eq, hx]
  · refine ⟨b0.reverse ++ b1.reverse, by simp [Fp2Elt.toBytesLE, le0, le1], by simp [l0, l1, hsz]; omega, ?_⟩
    have hl : ¬ ((Fp2.new p).sizeBytes ≠ (b0.reverse ++ b1.reverse).length) := by simp [l0, l1, hsz]; omega
    have hs : (Fp2.new p).sizeBytes / 2 = b0.reverse.length := by rw [hsz, List.length_reverse, l0]; omega
    have hs1 : slice (b0.reverse ++ b1.reverse) 0 b0.reverse.length = R.ok b0.reverse := by
      rw [slice, if_pos (by simp), List.take_left, List.drop_zero]
    have hs2 : slice (b0.reverse ++ b1.reverse) b0.reverse.length (2 * b0.reverse.length) = R.ok b1.reverse := by
      have : 2 * b0.reverse.length = (b0.reverse ++ b1.reverse).length := by simp [l0, l1]; omega
      rw [this, slice, if_pos (by simp), List.take_length, List.drop_left]
    simp only [Fp2.fromBytesLE, if_neg hl, hs, hs1, hs2, hbase, R.ok_bind, rl0, rl1, R.pure_eq, hx]

/-- C17, totality: every byte string of another length is rejected with `Err`; one of the right length is accepted, and its two halves are
the coordinates, reduced modulo `p`. -/
theorem C17_total (p : ℕ) (hp : 1 ≤ p) (bs : List Byte) :
    (bs.length ≠ (Fp2.new p).sizeBytes →
      (Fp2.new p).fromBytesBE bs = R.ok none ∧ (Fp2.new p).fromBytesLE bs = R.ok none) ∧
    ∀ b0 b1, bs = b0 ++ b1 → b0.length = (Fp.new p).sizeBytes → b1.length = (Fp.new p).sizeBytes →
      (∃ x, (Fp2.new p).fromBytesBE bs = R.ok (some x) ∧ Canon2 p x ∧
        x.n0.n = (beValue b0 : ℤ) % p ∧ x.n1.n = (beValue b1 : ℤ) % p) ∧
      (∃ x, (Fp2.new p).fromBytesLE bs = R.ok (some x) ∧ Canon2 p x ∧
        x.n0.n = (beValue b0.reverse : ℤ) % p ∧ x.n1.n = (beValue b1.reverse : ℤ) % p) := by
  haveI : NeZero p := ⟨by omega⟩
  have hpos : (0 : ℤ) < p := by exact_mod_cast hp
  constructor
  · intro h
    have h' : (Fp2.new p).sizeBytes ≠ bs.length := fun e => h e.symm
    simp [Fp2.fromBytesBE, Fp2.fromBytesLE, h']
  · rintro b0 b1 rfl l0 l1
    have hsz : (Fp2.new p).sizeBytes = 2 * (Fp.new p).sizeBytes := rfl
    have hl : ¬ ((Fp2.new p).sizeBytes ≠ (b0 ++ b1).length) := by simp [l0, l1, hsz]; omega
    have hs : (Fp2.new p).sizeBytes / 2 = b0.length := by rw [hsz, l0]; omega
    have hs1 : slice (b0 ++ b1) 0 b0.length = R.ok b0 := by simp [slice]
    have hs2 : slice (b0 ++ b1) b0.length (2 * b0.length) = R.ok b1 := by
      have : 2 * b0.length = (b0 ++ b1).length := by simp [l0, l1]; omega
      rw [this, slice, if_pos (by simp), List.take_length, List.drop_left]
    have hbase : (Fp2.new p).base = Fp.new p := rfl
    have hc : ∀ z : ℤ, Canon p ⟨z % p, ⟨p⟩⟩ := fun z => ⟨rfl, Int.emod_nonneg _ hpos.ne', Int.emod_lt_of_pos _ hpos⟩
    constructor
    · simp only [Fp2.fromBytesBE, if_neg hl, hs, hs1, hs2, R.ok_bind, hbase, (C11_deserialize p hp _ 0).1, R.pure_eq]
      exact ⟨_, rfl, ⟨rfl, hc _, hc _⟩, rfl, rfl⟩
    · simp only [Fp2.fromBytesLE, if_neg hl, hs, hs1, hs2, R.ok_bind, hbase, (C11_deserialize p hp _ 0).2.1, R.pure_eq]
      exact ⟨_, rfl, ⟨rfl, hc _, hc _⟩, rfl, rfl⟩

/-- C17, layout: the bytes are those of the real part followed by those of the imaginary part, each half of the length, each in the byte
order asked for. -/
theorem C17_layout (p : ℕ) (hp : 1 ≤ p) (x : Fp2Elt) (hx : Canon2 p x) :
    ∃ b0 b1, x.toBytesBE = R.ok (b0 ++ b1) ∧ x.toBytesLE = R.ok (b0.reverse ++ b1.reverse) ∧
      b0.length = (Fp.new p).sizeBytes ∧ b1.length = (Fp.new p).sizeBytes ∧
      (beValue b0 : ℤ) = x.n0.n ∧ (beValue b1 : ℤ) = x.n1.n := by
  obtain ⟨-, h0, h1⟩ := hx
  obtain ⟨b0, e0, l0, v0, le0, -⟩ := C10_serialize p hp x.n0 h0
  obtain ⟨b1, e1, l1, v1, le1, -⟩ := C10_serialize p hp x.n1 h1
  exact ⟨b0, b1, by simp [Fp2Elt.toBytesBE, e0, e1], by simp [Fp2Elt.toBytesLE, le0, le1], l0, l1, v0, v1⟩

example : (Fp2Elt.mk ⟨3, ⟨257⟩⟩ ⟨256, ⟨257⟩⟩ ⟨⟨257⟩⟩).toBytesBE = R.ok [0, 3, 1, 0] ∧
    (Fp2.new 257).fromBytesBE [0, 3, 1] = R.ok none := by
  constructor <;> decide +kernel

/-! ## C18 -/

/-- C18. `sgn0` returns 1 or -1; it is 1 exactly when both coordinates are even. -/
theorem C18_sgn0 (p : ℕ) (hp : 1 ≤ p) (x : Fp2Elt) (hx : Canon2 p x) :
    x.sgn0 = if x.n0.n % 2 = 0 ∧ x.n1.n % 2 = 0 then 1 else -1 := by
  obtain ⟨hf, ⟨_, h0, _⟩, ⟨_, h1, _⟩⟩ := hx
  have hs : ∀ a : FpElt, 0 ≤ a.n → a.sgn0 = if a.n % 2 = 0 then 1 else -1 := by
    intro a ha
    rw [FpElt.sgn0, Int.tmod_eq_emod_of_nonneg ha]
    split_ifs <;> omega
  rw [Fp2Elt.sgn0, hs _ h0, hs _ h1]
  by_cases hz : x.n0.n = 0
  · have : x.n0.isZero = true := by simp [FpElt.isZero, hz]
    simp only [this, hz]
    by_cases h : x.n1.n % 2 = 0 <;> simp [h] <;> decide
  · have : x.n0.isZero = false := by simp [FpElt.isZero, hz]
    simp only [this]
    by_cases h : x.n1.n % 2 = 0 <;> by_cases h' : x.n0.n % 2 = 0 <;> simp [h, h'] <;> decide

/-- C18, antisymmetry, exactly: for nonzero `x` and odd `p`, `sgn0(-x) = -sgn0(x)` holds if and only if a coordinate is
zero or both have the same parity. Partial: the property claims it for every nonzero `x`; see `C18_refuted`. -/
theorem C18_antisym_partial (p : ℕ) (hp : p % 2 = 1) (x : Fp2Elt) (hx : Canon2 p x)
    (hx0 : x.n0.n ≠ 0 ∨ x.n1.n ≠ 0) :
    ∃ y, x.neg = R.ok y ∧ Canon2 p y ∧
      (y.sgn0 = -x.sgn0 ↔ x.n0.n = 0 ∨ x.n1.n = 0 ∨ x.n0.n % 2 = x.n1.n % 2) := by
  have hneg : ∀ a : FpElt, Canon p a → a.neg = R.ok ⟨if a.n = 0 then 0 else p - a.n, ⟨p⟩⟩ := by
    rintro ⟨n, f⟩ ⟨hf, h0, h1⟩
    simp only at hf h0 h1
    subst hf
    have hp0 : p ≠ 0 := by omega
    have : Int.fmod (-n) (p : ℤ) = if n = 0 then 0 else p - n := by
      rw [Int.fmod_eq_emod_of_nonneg _ (by positivity)]
      split_ifs with h
      · simp [h]
      · rw [← Int.add_emod_right, Int.emod_eq_of_lt] <;> omega
    simp [FpElt.neg, FpElt.red, Big.modFloor, hp0, this]
  have hcan : ∀ a : FpElt, Canon p a → Canon p ⟨if a.n = 0 then 0 else p - a.n, ⟨p⟩⟩ := by
    rintro a ⟨hf, h0, h1⟩
    refine ⟨rfl, ?_, ?_⟩ <;> simp only <;> split_ifs <;> omega
  have hc : Canon2 p ⟨⟨if x.n0.n = 0 then 0 else p - x.n0.n, ⟨p⟩⟩, ⟨if x.n1.n = 0 then 0 else p - x.n1.n, ⟨p⟩⟩, x.f⟩ :=
    ⟨hx.1, hcan _ hx.2.1, hcan _ hx.2.2⟩
  refine ⟨_, by simp only [Fp2Elt.neg, hneg _ hx.2.1, hneg _ hx.2.2, R.ok_bind, R.pure_eq, Fp2Elt.elt], hc, ?_⟩
  rw [C18_sgn0 p (by omega) _ hc, C18_sgn0 p (by omega) x hx]
  obtain ⟨-, ⟨-, h0, h0'⟩, ⟨-, h1, h1'⟩⟩ := hx
  simp only
  split_ifs <;> omega

/-- C18 is refuted for every odd `p ≥ 5`: for `x = 1 + 2i` both `x` and `-x` have sign `-1`. -/
theorem C18_refuted (p : ℕ) (hp : p % 2 = 1) (h5 : 5 ≤ p) :
    ∃ x y, Canon2 p x ∧ x.neg = R.ok y ∧ x.sgn0 = -1 ∧ y.sgn0 = -1 := by
  have hx : Canon2 p ⟨⟨1, ⟨p⟩⟩, ⟨2, ⟨p⟩⟩, ⟨⟨p⟩⟩⟩ :=
    ⟨rfl, ⟨rfl, by simp, by simp only; omega⟩, ⟨rfl, by simp, by simp only; omega⟩⟩
  obtain ⟨y, hy, hyc, hiff⟩ := C18_antisym_partial p hp _ hx (Or.inl (by simp))
  have h1 := C18_sgn0 p (by omega) _ hx
  simp at h1
  refine ⟨_, y, hx, hy, h1, ?_⟩
  have h2 := C18_sgn0 p (by omega) y hyc
  simp only [h1] at hiff
  rcases (by split_ifs at h2 <;> simp [h2] : y.sgn0 = 1 ∨ y.sgn0 = -1) with h | h
  · exact absurd (hiff.1 (by simp [h])) (by simp)
  · exact h

example : (Fp2Elt.mk ⟨4, ⟨7⟩⟩ ⟨2, ⟨7⟩⟩ ⟨⟨7⟩⟩).sgn0 = 1 ∧ (Fp2Elt.mk ⟨0, ⟨7⟩⟩ ⟨3, ⟨7⟩⟩ ⟨⟨7⟩⟩).sgn0 = -1 := by
  constructor <;> decide +kernel

end Redox.Props
