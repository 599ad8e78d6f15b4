import Mathlib.AlgebraicGeometry.EllipticCurve.Affine.Point
import Mathlib.Algebra.Field.ZMod
import Mathlib.FieldTheory.Finite.Basic
import Mathlib.Tactic.LinearCombination
import Mathlib.Tactic.FieldSimp
import Verif.Math.Cofactor

/-! # The automorphism `(x, y) ↦ (β x, y)` of `y² = x³ + b`, `β² + β + 1 = 0` -/

namespace Redox.J0

open WeierstrassCurve.Affine

variable {F : Type*} [Field F] [DecidableEq F] {b β : F}

/-- `y² = x³ + b`. -/
abbrev WJ (b : F) : WeierstrassCurve.Affine F := ⟨0, 0, 0, 0, b⟩

theorem cube (hβ : β ^ 2 + β + 1 = 0) : β ^ 3 = 1 := by linear_combination (β - 1) * hβ

theorem ne_zero (hβ : β ^ 2 + β + 1 = 0) : β ≠ 0 := by
  rintro rfl; simp at hβ

theorem nonsing (hβ : β ^ 2 + β + 1 = 0) {x y : F} (h : (WJ b).Nonsingular x y) : (WJ b).Nonsingular (β * x) y := by
  rw [WeierstrassCurve.Affine.nonsingular_iff, WeierstrassCurve.Affine.equation_iff] at h ⊢
  simp only [zero_mul, mul_zero, add_zero, sub_zero] at h ⊢
  obtain ⟨h1, h2⟩ := h
  refine ⟨by linear_combination h1 - x ^ 3 * cube hβ, h2.imp_left fun hx h0 => hx ?_⟩
  have hb := ne_zero hβ
  have : β ^ 2 * (3 * x ^ 2) = 0 := by linear_combination -h0
  rcases mul_eq_zero.1 this with h | h
  · exact absurd h (pow_ne_zero 2 hb)
  · rw [h]

/-- The map on points. -/
def aut (hβ : β ^ 2 + β + 1 = 0) : (WJ b).Point → (WJ b).Point
  | .zero => .zero
  | .some x y h => .some (β * x) y (nonsing hβ h)

theorem aut_zero (hβ : β ^ 2 + β + 1 = 0) : aut (b := b) hβ 0 = 0 := rfl

theorem some_congr {x y x' y' : F} {h : (WJ b).Nonsingular x y} {h' : (WJ b).Nonsingular x' y'} (hx : x = x') (hy : y = y') :
    Point.some x y h = Point.some x' y' h' := by subst hx hy; rfl

theorem aut_add (hβ : β ^ 2 + β + 1 = 0) (A B : (WJ b).Point) : aut hβ (A + B) = aut hβ A + aut hβ B := by
  have hb := ne_zero hβ
  have h3 := cube hβ
  rcases A with _ | ⟨x1, y1, h1⟩
  · exact (congrArg _ (zero_add B)).trans (zero_add _).symm
  rcases B with _ | ⟨x2, y2, h2⟩
  · exact (congrArg _ (add_zero _)).trans (add_zero _).symm
  by_cases hxy : x1 = x2 ∧ y1 = (WJ b).negY x2 y2
  · rw [Point.add_of_Y_eq hxy.1 hxy.2, aut_zero]
    symm
    refine Point.add_of_Y_eq (by rw [hxy.1]) ?_
    rw [hxy.2]
    simp [WeierstrassCurve.Affine.negY]
  · have hxy' : ¬ (β * x1 = β * x2 ∧ y1 = (WJ b).negY (β * x2) y2) := by
      rintro ⟨h, h'⟩
      refine hxy ⟨mul_left_cancel₀ hb h, ?_⟩
      rw [h']
      simp [WeierstrassCurve.Affine.negY]
    have hs : (WJ b).slope (β * x1) (β * x2) y1 y2 = β ^ 2 * (WJ b).slope x1 x2 y1 y2 := by
      by_cases hx : x1 = x2
      · have hy : y1 ≠ (WJ b).negY x2 y2 := fun h => hxy ⟨hx, h⟩
        have hy' : y1 ≠ (WJ b).negY (β * x2) y2 := fun h => hxy' ⟨by rw [hx], h⟩
        rw [slope_of_Y_ne hx hy, slope_of_Y_ne (by rw [hx]) hy']
        simp only [WeierstrassCurve.Affine.negY, zero_mul, mul_zero, sub_zero, add_zero]
        rw [← mul_div_assoc]
        congr 1
        ring
      · have hx' : β * x1 ≠ β * x2 := fun h => hx (mul_left_cancel₀ hb h)
        rw [slope_of_X_ne hx, slope_of_X_ne hx']
        have d1 := sub_ne_zero.2 hx
        rw [← mul_sub, ← mul_div_assoc, div_eq_div_iff (mul_ne_zero hb d1) d1]
        linear_combination -(y1 - y2) * (x1 - x2) * h3
    have hX : (WJ b).addX (β * x1) (β * x2) ((WJ b).slope (β * x1) (β * x2) y1 y2) =
        β * (WJ b).addX x1 x2 ((WJ b).slope x1 x2 y1 y2) := by
      rw [hs]
      simp only [WeierstrassCurve.Affine.addX]
      linear_combination (β * (WJ b).slope x1 x2 y1 y2 ^ 2) * h3
    rw [Point.add_some hxy]
    change Point.some _ _ _ = Point.some _ _ _ + Point.some _ _ _
    rw [Point.add_some hxy']
    refine some_congr hX.symm ?_
    simp only [WeierstrassCurve.Affine.addY, WeierstrassCurve.Affine.negAddY, hs]
    rw [hs] at hX
    rw [hX]
    simp only [WeierstrassCurve.Affine.negY, zero_mul, sub_zero]
    linear_combination ((WJ b).slope x1 x2 y1 y2 * ((WJ b).addX x1 x2 ((WJ b).slope x1 x2 y1 y2) - x1)) * h3

/-- The automorphism as a group homomorphism. -/
def autHom (hβ : β ^ 2 + β + 1 = 0) : (WJ b).Point →+ (WJ b).Point where
  toFun := aut hβ
  map_zero' := rfl
  map_add' := aut_add hβ

/-- `A`, its image and the image of its image add up to zero (for points with `x ≠ 0`). -/
theorem aut_sum (h3 : (3 : F) ≠ 0) (hβ : β ^ 2 + β + 1 = 0) {x y : F} (h : (WJ b).Nonsingular x y) (hx : x ≠ 0) :
    autHom hβ (autHom hβ (.some x y h)) + autHom hβ (.some x y h) + .some x y h = 0 := by
  have hb1 : x ≠ β * x := by
    intro he
    have : β = 1 := mul_right_cancel₀ hx (by linear_combination -he)
    subst this
    apply h3
    linear_combination hβ
  change (Point.some (β * (β * x)) y _ + Point.some (β * x) y _) + Point.some x y h = 0
  rw [add_comm, add_comm (Point.some (β * (β * x)) y _), ← add_assoc]
  have hne : ¬ (x = β * x ∧ y = (WJ b).negY (β * x) y) := fun h => hb1 h.1
  rw [Point.add_some hne]
  refine Point.add_of_Y_eq ?_ ?_
  · rw [slope_of_X_ne hb1]
    simp only [WeierstrassCurve.Affine.addX, sub_self, zero_div]
    linear_combination -x * hβ
  · rw [slope_of_X_ne hb1]
    simp [WeierstrassCurve.Affine.addY, WeierstrassCurve.Affine.negAddY, WeierstrassCurve.Affine.negY]

/-- The image of a point of prime order `q` is a multiple of it only by a root of `k² + k + 1` modulo `q`. -/
theorem root_of_eq {G : Type*} [AddCommGroup G] (f : G →+ G) {P : G} {q : ℕ} (hP : addOrderOf P = q)
    (hs : f (f P) + f P + P = 0) {k : ℤ} (hk : f P = k • P) : (q : ℤ) ∣ k ^ 2 + k + 1 := by
  rw [← hP, addOrderOf_dvd_iff_zsmul_eq_zero]
  rw [hk, map_zsmul, hk] at hs
  rw [add_smul, add_smul, sq, mul_smul, one_smul]
  exact hs

theorem no_root {q : ℕ} (hq : q.Prime) (h3 : q % 3 = 2) (k : ℤ) : ¬ (q : ℤ) ∣ k ^ 2 + k + 1 := by
  haveI : Fact q.Prime := ⟨hq⟩
  intro hd
  have h0 : (k : ZMod q) ^ 2 + k + 1 = 0 := by
    rw [← ZMod.intCast_zmod_eq_zero_iff_dvd] at hd
    exact_mod_cast hd
  have hc := cube h0
  have hk0 := ne_zero h0
  have hf := ZMod.pow_card_sub_one_eq_one hk0
  have h1 : (k : ZMod q) ^ (3 * ((q - 2) / 3) + 1) = 1 := by
    have : 3 * ((q - 2) / 3) + 1 = q - 1 := by have := hq.two_le; omega
    rw [this, hf]
  rw [pow_succ, pow_mul, hc, one_pow, one_mul] at h1
  rw [h1] at h0
  have : ((3 : ℕ) : ZMod q) = 0 := by push_cast; linear_combination h0
  rw [ZMod.natCast_eq_zero_iff] at this
  have := (Nat.prime_dvd_prime_iff_eq hq Nat.prime_three).1 this
  omega

theorem two_roots {q : ℕ} (hq : q.Prime) {c : ℤ} (hc : (q : ℤ) ∣ c ^ 2 + c + 1) {k : ℤ} (hk : (q : ℤ) ∣ k ^ 2 + k + 1) :
    (q : ℤ) ∣ k - c ∨ (q : ℤ) ∣ k - (-1 - c) := by
  have : (q : ℤ) ∣ (k - c) * (k - (-1 - c)) := by
    have := dvd_sub hk hc
    have e : (k - c) * (k - (-1 - c)) = k ^ 2 + k + 1 - (c ^ 2 + c + 1) := by ring
    rwa [e]
  exact (Nat.prime_iff_prime_int.1 hq).dvd_or_dvd this

end Redox.J0
