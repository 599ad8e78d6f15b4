import Mathlib.AlgebraicGeometry.EllipticCurve.Affine.Point
import Mathlib.Tactic.FieldSimp
import Mathlib.Tactic.LinearCombination

/-!
# The Renes–Costello–Batina addition formulas against Mathlib's group law

Everything here is over an arbitrary field `F` of characteristic other than 2.
-/

namespace Redox.RCB

open WeierstrassCurve

variable {F : Type*} [Field F] [DecidableEq F]

/-- The curve `y² = x³ + a x + b`. -/
abbrev W (a b : F) : WeierstrassCurve.Affine F := ⟨0, 0, 0, a, b⟩

theorem equation_iff (a b x y : F) : (W a b).Equation x y ↔ y ^ 2 = x ^ 3 + a * x + b := by
  rw [Affine.equation_iff]; simp

theorem nonsingular_iff (a b x y : F) :
    (W a b).Nonsingular x y ↔ y ^ 2 = x ^ 3 + a * x + b ∧ (3 * x ^ 2 + a ≠ 0 ∨ 2 * y ≠ 0) := by
  rw [Affine.nonsingular_iff, equation_iff]
  simp only [W, zero_mul, mul_zero, add_zero, sub_zero, ne_eq]
  have h : (0 = 3 * x ^ 2 + a) ↔ (3 * x ^ 2 + a = 0) := eq_comm
  rw [h, show (y = -y) ↔ 2 * y = 0 from ⟨fun h => by linear_combination h, fun h => by linear_combination h⟩]

/-! The polynomials computed by `core_add`. -/

def X3 {K : Type*} [CommRing K] (a b x1 y1 z1 x2 y2 z2 : K) : K :=
  (x1 * y2 + x2 * y1) * (y1 * y2 - a * (x1 * z2 + x2 * z1) - 3 * b * (z1 * z2)) -
  (y1 * z2 + y2 * z1) * (a * (x1 * x2) + 3 * b * (x1 * z2 + x2 * z1) - a ^ 2 * (z1 * z2))

def Y3 {K : Type*} [CommRing K] (a b x1 y1 z1 x2 y2 z2 : K) : K :=
  (3 * (x1 * x2) + a * (z1 * z2)) * (a * (x1 * x2) + 3 * b * (x1 * z2 + x2 * z1) - a ^ 2 * (z1 * z2)) +
  (y1 * y2 + a * (x1 * z2 + x2 * z1) + 3 * b * (z1 * z2)) * (y1 * y2 - a * (x1 * z2 + x2 * z1) - 3 * b * (z1 * z2))

def Z3 {K : Type*} [CommRing K] (a b x1 y1 z1 x2 y2 z2 : K) : K :=
  (y1 * z2 + y2 * z1) * (y1 * y2 + a * (x1 * z2 + x2 * z1) + 3 * b * (z1 * z2)) +
  (x1 * y2 + x2 * y1) * (3 * (x1 * x2) + a * (z1 * z2))

/-- A projective triple represents a point of the curve. -/
def Rep {a b : F} (A : (W a b).Point) (x y z : F) : Prop :=
  match A with
  | .zero => x = 0 ∧ y ≠ 0 ∧ z = 0
  | .some x' y' _ => z ≠ 0 ∧ x = x' * z ∧ y = y' * z

theorem rep_zero {a b x y z : F} : Rep (0 : (W a b).Point) x y z ↔ x = 0 ∧ y ≠ 0 ∧ z = 0 := Iff.rfl

theorem rep_some {a b x' y' : F} (h : (W a b).Nonsingular x' y') {x y z : F} :
    Rep (.some x' y' h) x y z ↔ z ≠ 0 ∧ x = x' * z ∧ y = y' * z := Iff.rfl

section generic
variable {a b x1 y1 x2 y2 : F} (h1 : y1 ^ 2 = x1 ^ 3 + a * x1 + b) (h2 : y2 ^ 2 = x2 ^ 3 + a * x2 + b)
include h1 h2

/-- `y`-coordinate of `P - Q` for `x1 ≠ x2`. -/
def yD (x1 y1 x2 y2 : F) : F :=
  let l := (y1 + y2) / (x1 - x2)
  l * (x1 - (l ^ 2 - x1 - x2)) - y1

theorem a_eq (hx : x1 ≠ x2) : a = ((y1 ^ 2 - y2 ^ 2) - (x1 ^ 3 - x2 ^ 3)) / (x1 - x2) := by
  have : x1 - x2 ≠ 0 := sub_ne_zero.2 hx
  field_simp; linear_combination h2 - h1

theorem b_eq : b = y1 ^ 2 - x1 ^ 3 - a * x1 := by
  linear_combination -h1

theorem Z3_generic (hx : x1 ≠ x2) :
    Z3 a b x1 y1 1 x2 y2 1 = -(x1 - x2) ^ 3 * yD x1 y1 x2 y2 := by
  have hd : x1 - x2 ≠ 0 := sub_ne_zero.2 hx
  rw [b_eq h1 h2, a_eq h1 h2 hx]
  simp only [Z3, yD]
  field_simp
  ring

theorem X3_generic (hx : x1 ≠ x2) :
    X3 a b x1 y1 1 x2 y2 1 =
      ((y1 - y2) / (x1 - x2) * ((y1 - y2) / (x1 - x2)) - x1 - x2) * Z3 a b x1 y1 1 x2 y2 1 := by
  have hd : x1 - x2 ≠ 0 := sub_ne_zero.2 hx
  rw [b_eq h1 h2, a_eq h1 h2 hx]
  simp only [Z3, X3]
  field_simp
  ring

theorem Y3_generic (hx : x1 ≠ x2) :
    Y3 a b x1 y1 1 x2 y2 1 =
      (-((y1 - y2) / (x1 - x2) * (((y1 - y2) / (x1 - x2)) ^ 2 - x1 - x2 - x1) + y1)) *
        Z3 a b x1 y1 1 x2 y2 1 := by
  have hd : x1 - x2 ≠ 0 := sub_ne_zero.2 hx
  rw [b_eq h1 h2, a_eq h1 h2 hx]
  simp only [Z3, Y3]
  field_simp
  ring

end generic

/-! ### Homogeneity -/

theorem X3_scale (a b x1 y1 x2 y2 z1 z2 : F) :
    X3 a b (x1 * z1) (y1 * z1) z1 (x2 * z2) (y2 * z2) z2 = X3 a b x1 y1 1 x2 y2 1 * (z1 ^ 2 * z2 ^ 2) := by
  simp only [X3]; ring

theorem Y3_scale (a b x1 y1 x2 y2 z1 z2 : F) :
    Y3 a b (x1 * z1) (y1 * z1) z1 (x2 * z2) (y2 * z2) z2 = Y3 a b x1 y1 1 x2 y2 1 * (z1 ^ 2 * z2 ^ 2) := by
  simp only [Y3]; ring

theorem Z3_scale (a b x1 y1 x2 y2 z1 z2 : F) :
    Z3 a b (x1 * z1) (y1 * z1) z1 (x2 * z2) (y2 * z2) z2 = Z3 a b x1 y1 1 x2 y2 1 * (z1 ^ 2 * z2 ^ 2) := by
  simp only [Z3]; ring

/-! ### Points of order two -/

/-- The point has order exactly two. -/
def OrderTwo {a b : F} (A : (W a b).Point) : Prop := A ≠ 0 ∧ A + A = 0

theorem not_orderTwo_zero {a b : F} : ¬ OrderTwo (0 : (W a b).Point) := fun h => h.1 rfl

theorem orderTwo_neg {a b : F} (A : (W a b).Point) : OrderTwo (-A) ↔ OrderTwo A := by
  unfold OrderTwo
  rw [neg_ne_zero, ← neg_add, neg_eq_zero]

theorem orderTwo_some {a b x y : F} (h2 : (2 : F) ≠ 0) (h : (W a b).Nonsingular x y) :
    OrderTwo (.some x y h : (W a b).Point) ↔ y = 0 := by
  unfold OrderTwo
  constructor
  · rintro ⟨-, h0⟩
    by_contra hy
    rw [Affine.Point.add_self_of_Y_ne] at h0
    · exact Affine.Point.some_ne_zero _ h0
    · simp only [Affine.negY, zero_mul, sub_zero]
      intro hh
      exact hy (by have : 2 * y = 0 := by linear_combination hh
                   exact (mul_eq_zero.1 this).resolve_left h2)
  · rintro rfl
    exact ⟨Affine.Point.some_ne_zero _, Affine.Point.add_self_of_Y_eq (by simp [Affine.negY])⟩

/-! ### The addition theorem -/

theorem add_cases {a b : F} (h2 : (2 : F) ≠ 0) (A B : (W a b).Point) {x1 y1 z1 x2 y2 z2 : F}
    (hA : Rep A x1 y1 z1) (hB : Rep B x2 y2 z2) :
    (¬ OrderTwo (A - B) → Rep (A + B) (X3 a b x1 y1 z1 x2 y2 z2) (Y3 a b x1 y1 z1 x2 y2 z2)
      (Z3 a b x1 y1 z1 x2 y2 z2)) ∧
    (OrderTwo (A - B) → X3 a b x1 y1 z1 x2 y2 z2 = 0 ∧ Y3 a b x1 y1 z1 x2 y2 z2 = 0 ∧
      Z3 a b x1 y1 z1 x2 y2 z2 = 0) := by
  rcases A with _ | ⟨u1, v1, hn1⟩
  · obtain ⟨rfl, hy, rfl⟩ := hA
    have eX : X3 a b 0 y1 0 x2 y2 z2 = x2 * (y1 ^ 2 * y2) := by simp only [X3]; ring
    have eY : Y3 a b 0 y1 0 x2 y2 z2 = y2 * (y1 ^ 2 * y2) := by simp only [Y3]; ring
    have eZ : Z3 a b 0 y1 0 x2 y2 z2 = z2 * (y1 ^ 2 * y2) := by simp only [Z3]; ring
    rw [eX, eY, eZ]
    change (¬ OrderTwo (0 - B) → Rep (0 + B) _ _ _) ∧ (OrderTwo (0 - B) → _)
    rw [zero_add, zero_sub, orderTwo_neg]
    rcases B with _ | ⟨u2, v2, hn2⟩
    · obtain ⟨rfl, hy2, rfl⟩ := hB
      refine ⟨fun _ => ⟨by simp, by positivity, by simp⟩, fun h => absurd h not_orderTwo_zero⟩
    · obtain ⟨hz, rfl, rfl⟩ := hB
      rw [orderTwo_some h2]
      refine ⟨fun h => ⟨by simp [hz, hy, h], by ring, by ring⟩, ?_⟩
      rintro rfl; simp
  · obtain ⟨hz1, rfl, rfl⟩ := hA
    rcases B with _ | ⟨u2, v2, hn2⟩
    · obtain ⟨rfl, hy2, rfl⟩ := hB
      have eX : X3 a b (u1 * z1) (v1 * z1) z1 0 y2 0 = u1 * z1 * (y2 ^ 2 * (v1 * z1)) := by simp only [X3]; ring
      have eY : Y3 a b (u1 * z1) (v1 * z1) z1 0 y2 0 = v1 * z1 * (y2 ^ 2 * (v1 * z1)) := by simp only [Y3]; ring
      have eZ : Z3 a b (u1 * z1) (v1 * z1) z1 0 y2 0 = z1 * (y2 ^ 2 * (v1 * z1)) := by simp only [Z3]; ring
      rw [eX, eY, eZ]
      change (¬ OrderTwo (_ - 0) → Rep (_ + 0) _ _ _) ∧ (OrderTwo (_ - 0) → _)
      rw [add_zero, sub_zero, orderTwo_some h2]
      refine ⟨fun h => ⟨by simp [hz1, hy2, h], by ring, by ring⟩, ?_⟩
      rintro rfl; simp
    · obtain ⟨hz2, rfl, rfl⟩ := hB
      rw [X3_scale, Y3_scale, Z3_scale]
      have hs : z1 ^ 2 * z2 ^ 2 ≠ 0 := by positivity
      obtain ⟨e1, ns1⟩ := (nonsingular_iff a b u1 v1).1 hn1
      obtain ⟨e2, ns2⟩ := (nonsingular_iff a b u2 v2).1 hn2
      by_cases hx : u1 = u2
      · subst hx
        have hvv : v1 = v2 ∨ v1 = -v2 := sq_eq_sq_iff_eq_or_eq_neg.1 (by rw [e1, e2])
        by_cases hv : v1 = -v2
        · -- A = -B
          obtain rfl : v2 = -v1 := by rw [hv, neg_neg]
          have hAB : (Affine.Point.some u1 v1 hn1 : (W a b).Point) = -Affine.Point.some u1 (-v1) hn2 := by
            rw [Affine.Point.neg_some]; simp [Affine.negY]
          have hsum : (Affine.Point.some u1 v1 hn1 : (W a b).Point) + Affine.Point.some u1 (-v1) hn2 = 0 := by
            rw [hAB, neg_add_cancel]
          have hdiff : (Affine.Point.some u1 v1 hn1 : (W a b).Point) - Affine.Point.some u1 (-v1) hn2 =
              Affine.Point.some u1 v1 hn1 + Affine.Point.some u1 v1 hn1 := by
            rw [sub_eq_add_neg, ← hAB]
          rw [hsum, hdiff]
          have hX : X3 a b u1 v1 1 u1 (-v1) 1 = 0 := by simp only [X3]; ring
          have hZ : Z3 a b u1 v1 1 u1 (-v1) 1 = 0 := by simp only [Z3]; ring
          rw [hX, hZ]
          simp only [zero_mul, rep_zero]
          by_cases hv0 : v1 = 0
          · subst hv0
            have hY : Y3 a b u1 0 1 u1 (-0) 1 = -(3 * u1 ^ 2 + a) ^ 3 := by
              rw [b_eq e1 e1]; simp only [Y3]; ring
            have h3 : 3 * u1 ^ 2 + a ≠ 0 := by simpa using ns1
            rw [hY]
            have h0 : (Affine.Point.some u1 0 hn1 : (W a b).Point) + Affine.Point.some u1 0 hn1 = 0 :=
              ((orderTwo_some h2 hn1).2 rfl).2
            rw [h0]
            exact ⟨fun _ => ⟨trivial, by simp [h3, hz1, hz2], trivial⟩, fun h => absurd h not_orderTwo_zero⟩
          · have hvn : v1 ≠ (W a b).negY u1 v1 := by
              simp only [Affine.negY, zero_mul, sub_zero]
              intro hh
              exact hv0 ((mul_eq_zero.1 (by linear_combination hh : 2 * v1 = 0)).resolve_left h2)
            rw [Affine.Point.add_self_of_Y_ne hvn, orderTwo_some h2]
            have hY : Y3 a b u1 v1 1 u1 (-v1) 1 = (2 * v1) ^ 3 *
                (W a b).addY u1 u1 v1 ((W a b).slope u1 u1 v1 v1) := by
              rw [Affine.slope_of_Y_ne rfl hvn]
              simp only [Affine.addY, Affine.negAddY, Affine.addX, Affine.negY, W]
              rw [b_eq e1 e1]
              simp only [Y3]
              have h2v : v1 - (-v1 - 0 * u1 - 0) ≠ 0 := by
                intro hh
                exact hv0 ((mul_eq_zero.1 (by linear_combination hh : 2 * v1 = 0)).resolve_left h2)
              have h2v' : v1 - (-v1 - 0 * u1 - 0) = 2 * v1 := by ring
              rw [h2v']
              field_simp
              ring
            rw [hY]
            refine ⟨fun h => ⟨trivial, by simp [h, h2, hv0, hz1, hz2], trivial⟩, fun h => ⟨trivial, by simp [h], trivial⟩⟩
        · obtain rfl : v1 = v2 := hvv.resolve_right hv
          have hv0 : v1 ≠ 0 := by rintro rfl; simp at hv
          rw [sub_self]
          refine ⟨fun _ => ?_, fun h => absurd h not_orderTwo_zero⟩
          have hvn : v1 ≠ (W a b).negY u1 v1 := by
            simp only [Affine.negY, zero_mul, sub_zero]
            intro hh
            exact hv0 ((mul_eq_zero.1 (by linear_combination hh : 2 * v1 = 0)).resolve_left h2)
          rw [Affine.Point.add_self_of_Y_ne hvn, rep_some]
          have h2v' : v1 - (-v1 - 0 * u1 - 0) = 2 * v1 := by ring
          have hZ : Z3 a b u1 v1 1 u1 v1 1 = (2 * v1) ^ 3 := by
            rw [b_eq e1 e1]; simp only [Z3]; ring
          rw [hZ, Affine.slope_of_Y_ne rfl hvn]
          simp only [Affine.addY, Affine.negAddY, Affine.addX, Affine.negY, W]
          rw [h2v']
          refine ⟨by simp [h2, hv0, hz1, hz2], ?_, ?_⟩
          · rw [b_eq e1 e1]; simp only [X3]; field_simp; ring
          · rw [b_eq e1 e1]; simp only [Y3]; field_simp; ring
      · have hd : u1 - u2 ≠ 0 := sub_ne_zero.2 hx
        have hxn : ¬(u1 = u2 ∧ v1 = (W a b).negY u2 v2) := fun h => hx h.1
        rw [sub_eq_add_neg, Affine.Point.neg_some, Affine.Point.add_of_X_ne hx, Affine.Point.add_of_X_ne hx,
          orderTwo_some h2, rep_some]
        have hD : (W a b).addY u1 u2 v1 ((W a b).slope u1 u2 v1 ((W a b).negY u2 v2)) = yD u1 v1 u2 v2 := by
          rw [Affine.slope_of_X_ne hx]
          simp only [Affine.addY, Affine.negAddY, Affine.addX, Affine.negY, yD, W]
          ring
        rw [hD, X3_generic e1 e2 hx, Y3_generic e1 e2 hx, Z3_generic e1 e2 hx]
        refine ⟨fun h => ⟨by simp [h, hd, hz1, hz2], ?_, ?_⟩, fun h => by simp [h]⟩
        · rw [Affine.slope_of_X_ne hx]; simp only [Affine.addX, W]; ring
        · rw [Affine.slope_of_X_ne hx]; simp only [Affine.addY, Affine.negAddY, Affine.addX, Affine.negY, W]; ring

end Redox.RCB
