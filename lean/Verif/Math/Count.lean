import Mathlib.AlgebraicGeometry.EllipticCurve.Affine.Point
import Mathlib.Algebra.Field.ZMod
import Mathlib.GroupTheory.Perm.Cycle.Type
import Mathlib.GroupTheory.SpecificGroups.Cyclic

/-! # Counting points: at most two per `x`-coordinate -/

namespace Redox.Count

open WeierstrassCurve.Affine

variable {p : ℕ} [Fact p.Prime]

/-- The point at infinity, or `x` together with the parity of `y`. -/
def code {W : WeierstrassCurve.Affine (ZMod p)} : W.Point → Option (ZMod p × Bool)
  | .zero => none
  | .some x y _ => some (x, decide (y.val % 2 = 0))

theorem code_injective (h2 : p ≠ 2) (W : WeierstrassCurve.Affine (ZMod p)) (h1 : W.a₁ = 0) (h3 : W.a₃ = 0) :
    Function.Injective (code (W := W)) := by
  have hodd : p % 2 = 1 := (Fact.out : p.Prime).eq_two_or_odd.resolve_left h2
  intro A B h
  rcases A with _ | ⟨x, y, hn⟩ <;> rcases B with _ | ⟨x', y', hn'⟩
  · rfl
  · simp [code] at h
  · simp [code] at h
  · simp only [code, Option.some.injEq, Prod.mk.injEq] at h
    obtain ⟨rfl, hpar⟩ := h
    rw [decide_eq_decide] at hpar
    have e1 := (W.equation_iff x y).1 hn.1
    have e2 := (W.equation_iff x y').1 hn'.1
    rw [h1, h3] at e1 e2
    have : (y - y') * (y + y') = 0 := by linear_combination e1 - e2
    have hy : y = y' := by
      rcases mul_eq_zero.1 this with h | h
      · exact sub_eq_zero.1 h
      · have hyn : y = -y' := eq_neg_of_add_eq_zero_left h
        by_cases h0 : y' = 0
        · rw [hyn, h0, neg_zero]
        · haveI : NeZero y' := ⟨h0⟩
          rw [hyn, ZMod.val_neg_of_ne_zero] at hpar
          have := y'.val_lt
          omega
    subst hy
    rfl

theorem finite_points (h2 : p ≠ 2) (W : WeierstrassCurve.Affine (ZMod p)) (h1 : W.a₁ = 0) (h3 : W.a₃ = 0) :
    Finite W.Point := Finite.of_injective _ (code_injective h2 W h1 h3)

theorem card_le (h2 : p ≠ 2) (W : WeierstrassCurve.Affine (ZMod p)) (h1 : W.a₁ = 0) (h3 : W.a₃ = 0) :
    Nat.card W.Point ≤ 2 * p + 1 := by
  have := Nat.card_le_card_of_injective _ (code_injective h2 W h1 h3)
  refine this.trans ?_
  rw [Nat.card_eq_fintype_card, Fintype.card_option, Fintype.card_prod, ZMod.card, Fintype.card_bool]
  omega

/-- If a point has order `r`, there is no point of order two and `3 r` exceeds the bound, then `r` is the number of
points. -/
theorem card_eq (h2 : p ≠ 2) (W : WeierstrassCurve.Affine (ZMod p)) (h1 : W.a₁ = 0) (h3 : W.a₃ = 0) {r : ℕ} {A : W.Point}
    (hA : addOrderOf A = r) (hno : ∀ B : W.Point, B + B = 0 → B = 0) (hb : 2 * p + 1 < 3 * r) :
    Nat.card W.Point = r := by
  haveI := finite_points h2 W h1 h3
  have hle := card_le h2 W h1 h3
  obtain ⟨k, hk⟩ : r ∣ Nat.card W.Point := hA ▸ addOrderOf_dvd_natCard A
  have hpos : 0 < Nat.card W.Point := Nat.card_pos
  have hodd : ¬ 2 ∣ Nat.card W.Point := by
    intro hd
    haveI : Fact (Nat.Prime 2) := ⟨Nat.prime_two⟩
    obtain ⟨B, hB⟩ := exists_prime_addOrderOf_dvd_card' (G := W.Point) 2 hd
    have h0 : B = 0 := hno B (by rw [← two_nsmul, ← hB]; exact addOrderOf_nsmul_eq_zero B)
    rw [h0, addOrderOf_zero] at hB
    omega
  rw [hk] at hle hpos hodd ⊢
  have hk3 : k < 3 := by
    by_contra h
    have : r * 3 ≤ r * k := Nat.mul_le_mul_left r (by omega)
    omega
  have hk0 : k ≠ 0 := by rintro rfl; simp at hpos
  have hk2 : k ≠ 2 := by rintro rfl; exact hodd (Dvd.intro_left r rfl)
  have : k = 1 := by omega
  rw [this, mul_one]

end Redox.Count
