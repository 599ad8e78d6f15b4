import Mathlib.Data.Nat.Size
import Verif.Props.InstanceProps
import Verif.Spec.Expr

/-!
# C73 (build profiles), C74 (the bit iterators call by call)
-/

set_option maxRecDepth 100000

namespace Redox.Props.Profile

open Spec Redox.Inst

/-! ## C74 -/

theorem size_eq_bits (k : ℕ) : Nat.size k = Big.bits k := by
  apply le_antisymm
  · exact Nat.size_le.2 (Big.lt_two_pow_bits k)
  · by_contra h
    push Not at h
    have hk : k ≠ 0 := by rintro rfl; simp [Big.bits] at h
    have h1 := Big.two_pow_bits_le hk
    have h2 := Nat.lt_size_self k
    have h3 : (2 : ℕ) ^ Nat.size k ≤ 2 ^ (Big.bits k - 1) := Nat.pow_le_pow_right (by norm_num) (by omega)
    omega

/-- C74, `iter_rl`: the call number `n` (from 0) of `next` on the iterator of a scalar returns bit `n`, and every call after
the last bit returns `None`, for ever. -/
theorem _root_.Redox.Props.C74_rl (k : ℕ) (r : ℤ) (n : ℕ) :
    (Scalar.mk k r).startRL.nth n = R.ok (if n < Nat.size k then some (k.testBit n) else none) := by
  rw [size_eq_bits]
  simpa [Scalar.startRL] using nth_rl (k := k) n 0

/-- C74, `iter_lr`: the same from the top bit down. The scalar is not zero or overflow checks are off. -/
theorem _root_.Redox.Props.C74_lr_partial (prof : Profile) (k : ℕ) (r : ℤ) (h0 : k ≠ 0 ∨ prof = .release)
    (hb : Nat.size k < 2 ^ 64) :
    ∃ it, (Scalar.mk k r).startLR prof = R.ok it ∧
      ∀ n, it.nth n = R.ok (if n < Nat.size k then some (k.testBit (Nat.size k - 1 - n)) else none) := by
  rw [size_eq_bits] at hb ⊢
  have hb' : Big.bits k < usizeMod := hb
  by_cases hk : Big.bits k = 0
  · have hk' : k = 0 := Big.bits_eq_zero.1 hk
    obtain rfl : prof = .release := h0.resolve_left (by simpa using hk')
    refine ⟨⟨0, usizeMod - 1, Big.toU32Digits k, true⟩, ?_, fun n => ?_⟩
    · simp [Scalar.startLR, hk]
    · rw [nth_done (by simp), if_neg (by omega)]
  · refine ⟨⟨Big.bits k, Big.bits k - 1, Big.toU32Digits k, true⟩, ?_, fun n => ?_⟩
    · simp [Scalar.startLR, hk]
    · rw [nth_lr hb' n _ (by omega), show Big.bits k - 1 + 1 = Big.bits k by omega]

/-- C74 is refuted for the zero scalar with overflow checks: `iter_lr` panics before returning an iterator. -/
theorem _root_.Redox.Props.C74_refuted_zero (r : ℤ) : (Scalar.mk 0 r).startLR .debug = R.panic .overflow := by
  simp [Scalar.startLR, Big.bits]

/-- Beyond the end: 6 = 110b has three bits. -/
example : ∃ it, (Scalar.mk 6 11).startLR .debug = R.ok it ∧ it.nth 0 = R.ok (some true) ∧ it.nth 1 = R.ok (some true) ∧
    it.nth 2 = R.ok (some false) ∧ it.nth 3 = R.ok none ∧ it.nth 100 = R.ok none :=
  ⟨⟨3, 2, [6], true⟩, rfl, by decide +kernel, by decide +kernel, by decide +kernel, by decide +kernel,
    by decide +kernel⟩

/-! ## C73 -/

theorem iterLR_profile (k : Scalar) :
    (k.k ≠ 0 → k.iterLR .debug = k.iterLR .release) ∧ (k.k = 0 → k.iterLR .debug = R.panic .overflow) := by
  refine ⟨fun h => ?_, fun h => ?_⟩
  · have : Big.bits k.k.natAbs ≠ 0 := fun h' => h (by simpa using Big.bits_eq_zero.1 h')
    simp [Scalar.iterLR, Scalar.startLR, this]
  · simp [Scalar.iterLR, Scalar.startLR, h, Big.bits]

/-- `d` (with overflow checks) and `f` (without) agree, unless `d` panics with an overflow. -/
def Agree {α : Type} (d f : R α) : Prop := d = f ∨ d = R.panic .overflow

theorem Agree.bind {α β : Type} {d f : R α} {g h : α → R β} (h1 : Agree d f) (h2 : ∀ a, Agree (g a) (h a)) :
    Agree (d >>= g) (f >>= h) := by
  rcases h1 with rfl | rfl
  · cases d with
    | ok a => simpa using h2 a
    | panic w => left; rfl
  · right; rfl

theorem Agree.rfl {α : Type} {d : R α} : Agree d d := Or.inl _root_.rfl

/-- C73 for `*` on a Weierstrass curve: for every point value and scalar value whatsoever. -/
theorem _root_.Redox.Props.C73_weierstrass_partial (P : Weierstrass.Point) (k : Scalar) :
    (k.k ≠ 0 → P.mul .debug k = P.mul .release k) ∧
    (P.mul .debug k = P.mul .release k ∨ P.mul .debug k = R.panic .overflow) := by
  obtain ⟨h1, h2⟩ := iterLR_profile k
  refine ⟨fun h => ?_, ?_⟩
  · simp only [Weierstrass.Point.mul, Weierstrass.Point.coreMul, h1 h]
  · by_cases h : k.k = 0
    · simp only [Weierstrass.Point.mul, Weierstrass.Point.coreMul, doIfEq]
      split
      · exact Agree.bind Agree.rfl fun _ => Agree.bind (Or.inr (h2 h)) fun _ => Agree.rfl
      · exact Or.inl rfl
    · left; simp only [Weierstrass.Point.mul, Weierstrass.Point.coreMul, h1 h]

/-- C73 for `*` on a Montgomery curve. -/
theorem _root_.Redox.Props.C73_montgomery_partial (P : Montgomery.Point) (k : Scalar) :
    (k.k ≠ 0 → P.mul .debug k = P.mul .release k) ∧
    (P.mul .debug k = P.mul .release k ∨ P.mul .debug k = R.panic .overflow) := by
  obtain ⟨h1, h2⟩ := iterLR_profile k
  refine ⟨fun h => ?_, ?_⟩
  · simp only [Montgomery.Point.mul, Montgomery.Point.coreMul, h1 h]
  · by_cases h : k.k = 0
    · simp only [Montgomery.Point.mul, Montgomery.Point.coreMul, doIfEq]
      split
      · exact Agree.bind Agree.rfl fun _ => Agree.bind (Or.inr (h2 h)) fun _ => Agree.rfl
      · exact Or.inl rfl
    · left; simp only [Montgomery.Point.mul, Montgomery.Point.coreMul, h1 h]

/-- C73 for `*` on an Edwards curve. -/
theorem _root_.Redox.Props.C73_edwards_partial (P : Edwards.Point) (k : Scalar) :
    (k.k ≠ 0 → P.mul .debug k = P.mul .release k) ∧
    (P.mul .debug k = P.mul .release k ∨ P.mul .debug k = R.panic .overflow) := by
  obtain ⟨h1, h2⟩ := iterLR_profile k
  refine ⟨fun h => ?_, ?_⟩
  · simp only [Edwards.Point.mul, Edwards.Point.coreMul, h1 h]
  · by_cases h : k.k = 0
    · simp only [Edwards.Point.mul, Edwards.Point.coreMul, doIfEq]
      split
      · exact Agree.bind Agree.rfl fun _ => Agree.bind (Or.inr (h2 h)) fun _ => Agree.rfl
      · exact Or.inl rfl
    · left; simp only [Edwards.Point.mul, Edwards.Point.coreMul, h1 h]

/-- C73 for whole computations: every expression over the API of a curve has the same outcome (the same point or the same
panic) in both profiles, unless it panics with an overflow in the debug profile. No validity of the curve is assumed. -/
theorem _root_.Redox.Props.C73_expressions_partial (x : PExpr) :
    (∀ e, x.runW .debug e = x.runW .release e ∨ x.runW .debug e = R.panic .overflow) ∧
    (∀ e, x.runM .debug e = x.runM .release e ∨ x.runM .debug e = R.panic .overflow) ∧
    (∀ e, x.runE .debug e = x.runE .release e ∨ x.runE .debug e = R.panic .overflow) := by
  refine ⟨fun e => ?_, fun e => ?_, fun e => ?_⟩
  · induction x with
    | identity | generator | point => exact Or.inl rfl
    | add a b iha ihb | sub a b iha ihb => exact Agree.bind iha fun _ => Agree.bind ihb fun _ => Agree.rfl
    | neg a ih => exact Agree.bind ih fun _ => Agree.rfl
    | mul k a ih => exact Agree.bind ih fun P => Agree.bind Agree.rfl fun k => (C73_weierstrass_partial P k).2
  · induction x with
    | identity | generator | point => exact Or.inl rfl
    | add a b iha ihb | sub a b iha ihb => exact Agree.bind iha fun _ => Agree.bind ihb fun _ => Agree.rfl
    | neg a ih => exact Agree.bind ih fun _ => Agree.rfl
    | mul k a ih => exact Agree.bind ih fun P => Agree.bind Agree.rfl fun k => (C73_montgomery_partial P k).2
  · induction x with
    | identity | generator | point => exact Or.inl rfl
    | add a b iha ihb | sub a b iha ihb => exact Agree.bind iha fun _ => Agree.bind ihb fun _ => Agree.rfl
    | neg a ih => exact Agree.bind ih fun _ => Agree.rfl
    | mul k a ih => exact Agree.bind ih fun P => Agree.bind Agree.rfl fun k => (C73_edwards_partial P k).2

/-- C73: the profiles differ on P256: `G * 0` is the identity in the release profile and panics in the debug profile. -/
theorem _root_.Redox.Props.C73_refuted_zero : ∃ e, P256 = R.ok e ∧
    (PExpr.mul 0 .generator).runW .debug e = R.panic .overflow ∧
    (PExpr.mul 0 .generator).runW .release e = e.identity := by
  refine ⟨_, p256_eq, ?_, ?_⟩ <;> decide +kernel

end Redox.Props.Profile
