import Mathlib.NumberTheory.LegendreSymbol.Basic
import Mathlib.Tactic.FieldSimp
import Mathlib.Tactic.LinearCombination

/-! # Identities behind the maps to curves: simplified SWU, Shallue-van de Woestijne, Elligator 2 -/

namespace Redox.MapId

section
variable {p : ℕ} [Fact p.Prime]

/-- In a prime field the product of two non-squares is a square. -/
theorem isSquare_mul_of_not {a b : ZMod p} (ha : ¬ IsSquare a) (hb : ¬ IsSquare b) : IsSquare (a * b) := by
  have ha0 : a ≠ 0 := fun h => ha (h ▸ IsSquare.zero)
  have hb0 : b ≠ 0 := fun h => hb (h ▸ IsSquare.zero)
  rw [ZMod.euler_criterion p (mul_ne_zero ha0 hb0), mul_pow]
  rw [ZMod.euler_criterion p ha0] at ha
  rw [ZMod.euler_criterion p hb0] at hb
  rw [(ZMod.pow_div_two_eq_neg_one_or_one p ha0).resolve_left ha,
    (ZMod.pow_div_two_eq_neg_one_or_one p hb0).resolve_left hb]
  ring

end

section
variable {F : Type*} [Field F]

theorem isSquare_sq_mul {a c : F} (h : IsSquare a) : IsSquare (c ^ 2 * a) := (IsSquare.sq c).mul h

/-- The right-hand side of the short Weierstrass equation. -/
def g (a b x : F) : F := x ^ 3 + a * x + b

/-- Simplified SWU: `g(t x₁) = t³ g(x₁)`. -/
theorem sswu_id {a b t : F} (ha : a ≠ 0) (ht : t + t * t ≠ 0) :
    g a b (t * (((t + t * t)⁻¹ + 1) * (-b * a⁻¹))) = t ^ 3 * g a b (((t + t * t)⁻¹ + 1) * (-b * a⁻¹)) := by
  have h0 : t ≠ 0 := by rintro rfl; simp at ht
  have h1 : 1 + t ≠ 0 := by intro h; apply ht; linear_combination t * h
  have e : t + t * t = t * (1 + t) := by ring
  unfold g
  rw [e]
  generalize hs : 1 + t = s at *
  obtain rfl : t = s - 1 := by linear_combination hs
  field_simp
  ring

/-- Shallue-van de Woestijne: `g` at `-Z/2 + τ`. -/
theorem svdw_half (h2 : (2 : F) ≠ 0) (a b z τ : F) :
    g a b (-z * 2⁻¹ + τ) = g a b z + ((3 * z ^ 2 + 4 * a) / 4 + τ ^ 2) * (τ - 3 * z / 2) := by
  have h4 : (4 : F) ≠ 0 := by have : (4 : F) = 2 * 2 := by norm_num
                              rw [this]; exact mul_ne_zero h2 h2
  unfold g
  have e4 : (4 : F) = 2 ^ 2 := by norm_num
  rw [e4]
  field_simp
  ring

/-- Shallue-van de Woestijne: the third candidate is a square when the product of the first two is. -/
theorem svdw_third (h2 : (2 : F) ≠ 0) {a b z c u v w : F} (hc : c ^ 2 = -g a b z * (3 * z ^ 2 + 4 * a))
    (hv : v = 1 - u ^ 2 * g a b z) (hw : w = 1 + u ^ 2 * g a b z) (hv0 : v ≠ 0) (hw0 : w ≠ 0)
    (hh : 3 * z ^ 2 + 4 * a ≠ 0) :
    g a b (z - 4 * g a b z / (3 * z ^ 2 + 4 * a) * (w / v) ^ 2) =
      (8 * c * w ^ 3 / ((3 * z ^ 2 + 4 * a) ^ 2 * v ^ 3)) ^ 2 *
        (g a b (-z * 2⁻¹ - u * c / w) * g a b (-z * 2⁻¹ + u * c / w)) := by
  have e4 : (4 : F) = 2 ^ 2 := by norm_num
  have h4 : (4 : F) ≠ 0 := by rw [e4]; exact pow_ne_zero 2 h2
  have hk : (3 * z ^ 2 + 4 * a) / 4 + (u * c / w) ^ 2 = (3 * z ^ 2 + 4 * a) * v ^ 2 / (4 * w ^ 2) := by
    rw [div_pow, mul_pow, hc]
    field_simp
    rw [hv, hw]; ring
  rw [sub_eq_add_neg _ (u * c / w), svdw_half h2, svdw_half h2, neg_sq, hk]
  obtain ⟨h, hh'⟩ : ∃ h, h = 3 * z ^ 2 + 4 * a := ⟨_, rfl⟩
  obtain rfl : a = (h - 3 * z ^ 2) / 4 := by field_simp; rw [hh']; ring
  rw [← hh'] at hc hh hk ⊢
  obtain ⟨G, hG⟩ : ∃ G, G = g ((h - 3 * z ^ 2) / 4) b z := ⟨_, rfl⟩
  rw [← hG] at hc hv hw ⊢
  have hb : b = G - z ^ 3 - (h - 3 * z ^ 2) / 4 * z := by rw [hG]; unfold g; ring
  obtain ⟨τ, hτ⟩ : ∃ τ, τ = u * c / w := ⟨_, rfl⟩
  rw [← hτ] at hk ⊢
  obtain ⟨K, hK⟩ : ∃ K, K = h * v ^ 2 / (4 * w ^ 2) := ⟨_, rfl⟩
  have hK0 : K ≠ 0 := by rw [hK]; positivity
  rw [← hK] at hk ⊢
  have h1 : z - 4 * G / h * (w / v) ^ 2 = z - G / K := by rw [hK]; field_simp
  have h3 : (8 * c * w ^ 3 / (h ^ 2 * v ^ 3)) ^ 2 = -(G / K ^ 3) := by
    rw [div_pow, mul_pow, mul_pow, hc, hK]
    field_simp
    ring
  rw [h1, h3]
  unfold g
  rw [hb]
  have hτ2 : τ ^ 2 = K - h / 4 := by linear_combination hk
  have key : (G + K * (-τ - 3 * z / 2)) * (G + K * (τ - 3 * z / 2)) =
      (G - 3 * z / 2 * K) ^ 2 - K ^ 2 * (K - h / 4) := by rw [← hτ2]; ring
  rw [key, e4]
  field_simp
  ring

/-- Elligator 2 on `Y² = X³ + A X² + B X`: `g(-x₁ - A) = t g(x₁)` for `x₁ = -A / (1+t)`. -/
theorem ell2_id {A B t : F} (ht : t + 1 ≠ 0) :
    ((-(-A * (t + 1)⁻¹) - A) ^ 3 + A * (-(-A * (t + 1)⁻¹) - A) ^ 2 + B * (-(-A * (t + 1)⁻¹) - A)) =
      t * ((-A * (t + 1)⁻¹) ^ 3 + A * (-A * (t + 1)⁻¹) ^ 2 + B * (-A * (t + 1)⁻¹)) := by
  generalize hs : t + 1 = s at *
  obtain rfl : t = s - 1 := by linear_combination hs
  field_simp
  ring

end

end Redox.MapId
