import Mathlib.AlgebraicGeometry.EllipticCurve.Affine.Point
import Mathlib.Tactic.FieldSimp
import Mathlib.Tactic.LinearCombination

/-!
# The Montgomery addition formulas of the code against Mathlib's group law

Everything here is over an arbitrary field `F` of characteristic other than 2, for `y² = x³ + a x² + x`.
-/

namespace Redox.Mont

open WeierstrassCurve

variable {F : Type*} [Field F] [DecidableEq F]

/-- The curve `y² = x³ + a x² + x`. -/
abbrev M (a : F) : WeierstrassCurve.Affine F := ⟨0, a, 0, 1, 0⟩

theorem equation_iff (a x y : F) : (M a).Equation x y ↔ y ^ 2 = x ^ 3 + a * x ^ 2 + x := by
  rw [Affine.equation_iff]; simp

theorem nonsingular_iff (a x y : F) :
    (M a).Nonsingular x y ↔ y ^ 2 = x ^ 3 + a * x ^ 2 + x ∧ (3 * x ^ 2 + 2 * a * x + 1 ≠ 0 ∨ 2 * y ≠ 0) := by
  rw [Affine.nonsingular_iff, equation_iff]
  simp only [M, zero_mul, sub_zero, ne_eq]
  have h : (0 = 3 * x ^ 2 + 2 * a * x + 1) ↔ (3 * x ^ 2 + 2 * a * x + 1 = 0) := eq_comm
  rw [h, show (y = -y) ↔ 2 * y = 0 from ⟨fun h => by linear_combination h, fun h => by linear_combination h⟩]

/-! The polynomials computed by `core_add`. -/

section poly
variable {K : Type*} [CommRing K] (a s x1 y1 z1 x2 y2 z2 : K)

def rr : K := y1 * z2 + y2 * z1
def tt : K := x1 * z2 + x2 * z1 + x1 * x2 * a - y1 * y2
def vv : K := (x1 * z2 + x2 * z1) * a + 3 * (x1 * x2) + z1 * z2
def ss : K := (x1 * y2 - x2 * y1) * s + x1 * x2 - z1 * z2
def uu : K := (x1 * z2 - x2 * z1) * s - x1 * y2 - x2 * y1
def ww : K := (y1 * z2 - y2 * z1) * s + (x1 * z2 + x2 * z1 + x1 * x2 * a) + y1 * y2

def X3 : K := rr y1 z1 y2 z2 * ss s x1 y1 z1 x2 y2 z2 - tt a x1 y1 z1 x2 y2 z2 * uu s x1 y1 z1 x2 y2 z2
def Y3 : K := tt a x1 y1 z1 x2 y2 z2 * ww a s x1 y1 z1 x2 y2 z2 - vv a x1 z1 x2 z2 * ss s x1 y1 z1 x2 y2 z2
def Z3 : K := vv a x1 z1 x2 z2 * uu s x1 y1 z1 x2 y2 z2 - rr y1 z1 y2 z2 * ww a s x1 y1 z1 x2 y2 z2

end poly

/-- A projective triple represents a point of the curve. -/
def Rep {a : F} (A : (M a).Point) (x y z : F) : Prop :=
  match A with
  | .zero => x = 0 ∧ y ≠ 0 ∧ z = 0
  | .some x' y' _ => z ≠ 0 ∧ x = x' * z ∧ y = y' * z

theorem rep_zero {a x y z : F} : Rep (0 : (M a).Point) x y z ↔ x = 0 ∧ y ≠ 0 ∧ z = 0 := Iff.rfl

theorem rep_some {a x' y' : F} (h : (M a).Nonsingular x' y') {x y z : F} :
    Rep (.some x' y' h) x y z ↔ z ≠ 0 ∧ x = x' * z ∧ y = y' * z := Iff.rfl

/-- `y`-coordinate of `P - Q` for `x1 ≠ x2`. -/
def yD (a x1 y1 x2 y2 : F) : F :=
  let l := (y1 + y2) / (x1 - x2)
  l * (x1 - (l ^ 2 - a - x1 - x2)) - y1

section generic
variable {a s x1 y1 x2 y2 : F} (h1 : y1 ^ 2 = x1 ^ 3 + a * x1 ^ 2 + x1)

section
variable (h2 : y2 ^ 2 = x2 ^ 3 + a * x2 ^ 2 + x2)
include h1 h2

theorem Z3_generic (hx : x1 ≠ x2) :
    Z3 a s x1 y1 1 x2 y2 1 = (x1 - x2) ^ 3 * (yD a x1 y1 x2 y2 - s) := by
  have hd : x1 - x2 ≠ 0 := sub_ne_zero.2 hx
  have h : Z3 a s x1 y1 1 x2 y2 1 = (y1 + y2) * ((x1 - x2) ^ 2 * (2 * x1 + x2 + a) - (y1 + y2) ^ 2) -
      y1 * (x1 - x2) ^ 3 - s * (x1 - x2) ^ 3 := by
    simp only [Z3, rr, tt, vv, ss, uu, ww]
    linear_combination (-s + y1 + 2 * y2) * h1 + (s + 2 * y1 + y2) * h2
  rw [h]
  simp only [yD]
  field_simp
  ring

theorem X3_generic (hx : x1 ≠ x2) :
    X3 a s x1 y1 1 x2 y2 1 =
      (((y1 - y2) / (x1 - x2)) ^ 2 - a - x1 - x2) * Z3 a s x1 y1 1 x2 y2 1 := by
  have hd : x1 - x2 ≠ 0 := sub_ne_zero.2 hx
  have h : X3 a s x1 y1 1 x2 y2 1 * (x1 - x2) ^ 2 =
      ((y1 - y2) ^ 2 - (a + x1 + x2) * (x1 - x2) ^ 2) * Z3 a s x1 y1 1 x2 y2 1 := by
    simp only [X3, Z3, rr, tt, vv, ss, uu, ww]
    linear_combination (2 * a * s * x1 * x2 - a * s * x1 ^ 2 + 2 * a * x1 * x2 * y1 + a * x1 ^ 2 * y2 + a * x2 ^ 2 *
      y1 - 3 * a * x2 ^ 2 * y2 + 6 * s * x1 * x2 ^ 2 - 3 * s * x1 ^ 2 * x2 - 2 * s * x2 ^ 3 + 3 * x1 * x2 ^ 2 * y1 - 3
      * x1 * x2 ^ 2 * y2 + 3 * x1 ^ 2 * x2 * y2 - 2 * x2 ^ 3 * y2 - 2 * s * y1 * y2 + s * y1 ^ 2 - y1 * y2 ^ 2 + y1 ^
      2 * y2 - y2 ^ 3 + s * x2 + x1 * y1 + x1 * y2 + 2 * x2 * y1 - 3 * x2 * y2) * h1 + (-2 * a * s * x1 * x2 + a * s *
      x2 ^ 2 + 2 * a * x1 * x2 * y2 - 4 * a * x1 ^ 2 * y1 + a * x2 ^ 2 * y1 + 3 * s * x1 * x2 ^ 2 - 6 * s * x1 ^ 2 *
      x2 + 2 * s * x1 ^ 3 + 3 * x1 * x2 ^ 2 * y1 - 3 * x1 ^ 2 * x2 * y1 + 3 * x1 ^ 2 * x2 * y2 - 3 * x1 ^ 3 * y1 - x1
      ^ 3 * y2 + 2 * s * y1 * y2 - s * y2 ^ 2 + y1 * y2 ^ 2 - s * x1 - 4 * x1 * y1 + x1 * y2 + x2 * y1 + x2 * y2) * h2
  field_simp
  linear_combination h

theorem Y3_generic (hx : x1 ≠ x2) :
    Y3 a s x1 y1 1 x2 y2 1 =
      (-((y1 - y2) / (x1 - x2) * (((y1 - y2) / (x1 - x2)) ^ 2 - a - x1 - x2 - x1) + y1)) * Z3 a s x1 y1 1 x2 y2 1 := by
  have hd : x1 - x2 ≠ 0 := sub_ne_zero.2 hx
  have h : Y3 a s x1 y1 1 x2 y2 1 * (x1 - x2) ^ 3 =
      -((y1 - y2) * ((y1 - y2) ^ 2 - (a + x1 + x2) * (x1 - x2) ^ 2 - x1 * (x1 - x2) ^ 2) + y1 * (x1 - x2) ^ 3) *
        Z3 a s x1 y1 1 x2 y2 1 := by
    simp only [Y3, Z3, rr, tt, vv, ss, uu, ww]
    linear_combination (4 * a * x1 * x2 ^ 4 - 10 * a * x1 ^ 2 * x2 ^ 3 + 2 * a * x1 ^ 3 * x2 ^ 2 + 2 * a * x2 ^ 5 -
      2 * a ^ 2 * x1 ^ 2 * x2 ^ 2 + a ^ 2 * x2 ^ 4 + 6 * x1 * x2 ^ 5 - 9 * x1 ^ 2 * x2 ^ 4 + 2 * x1 ^ 3 * x2 ^ 3 - 2 *
      a * s * x1 * x2 * y1 + 2 * a * s * x1 * x2 * y2 + a * s * x1 ^ 2 * y1 - a * s * x1 ^ 2 * y2 + 2 * a * s * x2 ^ 2
      * y2 + 2 * a * x1 * x2 * y1 * y2 - 2 * a * x1 * x2 * y1 ^ 2 - a * x1 ^ 2 * y1 * y2 + 3 * a * x1 ^ 2 * y2 ^ 2 + 4
      * a * x2 ^ 2 * y1 * y2 - a * x2 ^ 2 * y1 ^ 2 - 3 * a * x2 ^ 2 * y2 ^ 2 - 6 * s * x1 * x2 ^ 2 * y1 + 6 * s * x1 *
      x2 ^ 2 * y2 + 3 * s * x1 ^ 2 * x2 * y1 - 3 * s * x1 ^ 2 * x2 * y2 + 2 * s * x2 ^ 3 * y1 + 6 * x1 * x2 ^ 2 * y1 *
      y2 - 3 * x1 * x2 ^ 2 * y1 ^ 2 - 15 * x1 * x2 ^ 2 * y2 ^ 2 - 3 * x1 ^ 2 * x2 * y1 * y2 + 15 * x1 ^ 2 * x2 * y2 ^
      2 - 2 * x1 ^ 3 * y2 ^ 2 + 2 * x2 ^ 3 * y1 * y2 + 2 * x2 ^ 3 * y2 ^ 2 - 2 * a * x1 * x2 ^ 2 - 2 * a * x1 ^ 2 * x2
      + 2 * a * x2 ^ 3 - 2 * s * y1 * y2 ^ 2 + 3 * s * y1 ^ 2 * y2 - s * y1 ^ 3 - 2 * s * y2 ^ 3 - 2 * x1 * x2 ^ 3 - 6
      * x1 ^ 2 * x2 ^ 2 + 2 * x1 ^ 3 * x2 + 4 * x2 ^ 4 + 2 * y1 ^ 2 * y2 ^ 2 - y1 ^ 3 * y2 - 2 * y2 ^ 4 - s * x2 * y1
      + 3 * s * x2 * y2 - x1 * y1 ^ 2 + 3 * x1 * y2 ^ 2 + 5 * x2 * y1 * y2 - 2 * x2 * y1 ^ 2 - 3 * x2 * y2 ^ 2 - x1 ^
      2) * h1 + (-8 * a * x1 ^ 3 * x2 ^ 2 + 11 * a * x1 ^ 4 * x2 - a * x1 ^ 5 - a ^ 2 * x1 ^ 2 * x2 ^ 2 + 2 * a ^ 2 *
      x1 ^ 4 - 6 * x1 ^ 4 * x2 ^ 2 + 9 * x1 ^ 5 * x2 - 2 * x1 ^ 6 + 2 * a * s * x1 * x2 * y1 - 2 * a * s * x1 * x2 *
      y2 - 2 * a * s * x1 ^ 2 * y2 - a * s * x2 ^ 2 * y1 + a * s * x2 ^ 2 * y2 - 2 * a * x1 * x2 * y1 * y2 + 2 * a *
      x1 * x2 * y2 ^ 2 - 4 * a * x1 ^ 2 * y1 * y2 + 2 * a * x1 ^ 2 * y1 ^ 2 - a * x1 ^ 2 * y2 ^ 2 + a * x2 ^ 2 * y1 *
      y2 - 3 * s * x1 * x2 ^ 2 * y1 + 3 * s * x1 * x2 ^ 2 * y2 + 6 * s * x1 ^ 2 * x2 * y1 - 6 * s * x1 ^ 2 * x2 * y2 -
      2 * s * x1 ^ 3 * y1 + 3 * x1 * x2 ^ 2 * y1 * y2 - 6 * x1 ^ 2 * x2 * y1 * y2 + 3 * x1 ^ 2 * x2 * y2 ^ 2 - 2 * x1
      ^ 3 * y1 * y2 + 2 * x1 ^ 3 * y1 ^ 2 - 2 * x1 ^ 3 * y2 ^ 2 - a * x1 * x2 ^ 2 - a * x1 ^ 2 * x2 + 4 * a * x1 ^ 3 +
      3 * s * y1 * y2 ^ 2 - s * y2 ^ 3 - 9 * x1 ^ 2 * x2 ^ 2 + 14 * x1 ^ 3 * x2 - 3 * x1 ^ 4 + y1 * y2 ^ 3 + s * x1 *
      y1 - 3 * s * x1 * y2 - 5 * x1 * y1 * y2 + 2 * x1 * y1 ^ 2 + x2 * y2 ^ 2 - 3 * x1 * x2 + 3 * x1 ^ 2 + x2 ^ 2) *
      h2
  field_simp
  linear_combination h

end

include h1

theorem Y3_neg : Y3 a s x1 y1 1 x1 (-y1) 1 = (3 * x1 ^ 2 + 2 * a * x1 + 1) *
    ((3 * x1 ^ 2 + 2 * a * x1 + 1) ^ 2 - (a + 3 * x1) * (2 * y1) ^ 2) + y1 * (2 * y1) ^ 3 + s * (2 * y1) ^ 3 := by
  simp only [Y3, rr, tt, vv, ss, uu, ww]
  linear_combination (27 * a * x1 ^ 2 + 8 * a ^ 2 * x1 + 27 * x1 ^ 3 - 6 * s * y1 - 9 * y1 ^ 2 + 4 * a + 3 * x1) *
      h1

theorem Z3_dbl : Z3 a s x1 y1 1 x1 y1 1 = -(2 * y1) ^ 3 := by
  simp only [Z3, rr, tt, vv, ss, uu, ww]
  linear_combination (6 * y1) * h1

theorem X3_dbl : X3 a s x1 y1 1 x1 y1 1 * (2 * y1) ^ 2 =
    ((3 * x1 ^ 2 + 2 * a * x1 + 1) ^ 2 - (a + 2 * x1) * (2 * y1) ^ 2) * Z3 a s x1 y1 1 x1 y1 1 := by
  simp only [X3, Z3, rr, tt, vv, ss, uu, ww]
  linear_combination (-72 * a * x1 ^ 3 * y1 - 24 * a ^ 2 * x1 ^ 2 * y1 - 54 * x1 ^ 4 * y1 - 8 * a * y1 ^ 3 - 24 *
      x1 * y1 ^ 3 - 24 * a * x1 * y1 - 36 * x1 ^ 2 * y1 - 6 * y1) * h1

theorem Y3_dbl : Y3 a s x1 y1 1 x1 y1 1 * (2 * y1) ^ 3 =
    (-((3 * x1 ^ 2 + 2 * a * x1 + 1) * ((3 * x1 ^ 2 + 2 * a * x1 + 1) ^ 2 - (a + 3 * x1) * (2 * y1) ^ 2)) -
      y1 * (2 * y1) ^ 3) * Z3 a s x1 y1 1 x1 y1 1 := by
  simp only [Y3, Z3, rr, tt, vv, ss, uu, ww]
  linear_combination (324 * a * x1 ^ 5 * y1 + 216 * a ^ 2 * x1 ^ 4 * y1 + 48 * a ^ 3 * x1 ^ 3 * y1 + 162 * x1 ^ 6
      * y1 + 16 * a ^ 2 * x1 * y1 ^ 3 + 216 * a * x1 ^ 3 * y1 + 72 * a ^ 2 * x1 ^ 2 * y1 + 162 * x1 ^ 4 * y1 - 24 * y1
      ^ 5 + 8 * a * y1 ^ 3 - 48 * x1 * y1 ^ 3 + 36 * a * x1 * y1 + 54 * x1 ^ 2 * y1 + 6 * y1) * h1

end generic

/-! ### Homogeneity -/

theorem X3_scale (a s x1 y1 x2 y2 z1 z2 : F) :
    X3 a s (x1 * z1) (y1 * z1) z1 (x2 * z2) (y2 * z2) z2 = X3 a s x1 y1 1 x2 y2 1 * (z1 ^ 2 * z2 ^ 2) := by
  simp only [X3, rr, tt, vv, ss, uu, ww]; ring

theorem Y3_scale (a s x1 y1 x2 y2 z1 z2 : F) :
    Y3 a s (x1 * z1) (y1 * z1) z1 (x2 * z2) (y2 * z2) z2 = Y3 a s x1 y1 1 x2 y2 1 * (z1 ^ 2 * z2 ^ 2) := by
  simp only [Y3, rr, tt, vv, ss, uu, ww]; ring

theorem Z3_scale (a s x1 y1 x2 y2 z1 z2 : F) :
    Z3 a s (x1 * z1) (y1 * z1) z1 (x2 * z2) (y2 * z2) z2 = Z3 a s x1 y1 1 x2 y2 1 * (z1 ^ 2 * z2 ^ 2) := by
  simp only [Z3, rr, tt, vv, ss, uu, ww]; ring

/-- The affine point has `y`-coordinate `s`. -/
def HasY {a : F} (s : F) (A : (M a).Point) : Prop :=
  match A with
  | .zero => False
  | .some _ y _ => y = s

theorem not_hasY_zero {a s : F} : ¬ HasY s (0 : (M a).Point) := id

theorem hasY_some {a s x y : F} (h : (M a).Nonsingular x y) : HasY s (.some x y h : (M a).Point) ↔ y = s := Iff.rfl

/-! ### The addition theorem -/

theorem add_cases {a : F} (s : F) (h2 : (2 : F) ≠ 0) (A B : (M a).Point) {x1 y1 z1 x2 y2 z2 : F}
    (hA : Rep A x1 y1 z1) (hB : Rep B x2 y2 z2) :
    (¬ HasY s (A - B) → Rep (A + B) (X3 a s x1 y1 z1 x2 y2 z2) (Y3 a s x1 y1 z1 x2 y2 z2)
      (Z3 a s x1 y1 z1 x2 y2 z2)) ∧
    (HasY s (A - B) → X3 a s x1 y1 z1 x2 y2 z2 = 0 ∧ Y3 a s x1 y1 z1 x2 y2 z2 = 0 ∧
      Z3 a s x1 y1 z1 x2 y2 z2 = 0) := by
  rcases A with _ | ⟨u1, v1, hn1⟩
  · obtain ⟨rfl, hy, rfl⟩ := hA
    have eX : X3 a s 0 y1 0 x2 y2 z2 = x2 * (-y1 ^ 2 * (s * z2 + y2)) := by
      simp only [X3, rr, tt, vv, ss, uu, ww]; ring
    have eY : Y3 a s 0 y1 0 x2 y2 z2 = y2 * (-y1 ^ 2 * (s * z2 + y2)) := by
      simp only [Y3, rr, tt, vv, ss, uu, ww]; ring
    have eZ : Z3 a s 0 y1 0 x2 y2 z2 = z2 * (-y1 ^ 2 * (s * z2 + y2)) := by
      simp only [Z3, rr, tt, vv, ss, uu, ww]; ring
    rw [eX, eY, eZ]
    change (¬ HasY s (0 - B) → Rep (0 + B) _ _ _) ∧ (HasY s (0 - B) → _)
    rw [zero_add, zero_sub]
    rcases B with _ | ⟨u2, v2, hn2⟩
    · obtain ⟨rfl, hy2, rfl⟩ := hB
      refine ⟨fun _ => ⟨by simp, by simp [hy, hy2], by simp⟩, fun h => absurd h not_hasY_zero⟩
    · obtain ⟨hz, rfl, rfl⟩ := hB
      rw [Affine.Point.neg_some, hasY_some]
      have hneg : (M a).negY u2 v2 = -v2 := by simp [Affine.negY]
      rw [hneg]
      have hk : s * z2 + v2 * z2 = (s + v2) * z2 := by ring
      rw [hk]
      refine ⟨fun h => ⟨?_, by ring, by ring⟩, ?_⟩
      · have : s + v2 ≠ 0 := fun h0 => h (by linear_combination -h0)
        simp [hz, hy, this]
      · rintro rfl; simp
  · obtain ⟨hz1, rfl, rfl⟩ := hA
    rcases B with _ | ⟨u2, v2, hn2⟩
    · obtain ⟨rfl, hy2, rfl⟩ := hB
      have eX : X3 a s (u1 * z1) (v1 * z1) z1 0 y2 0 = u1 * z1 * (y2 ^ 2 * ((s - v1) * z1)) := by
        simp only [X3, rr, tt, vv, ss, uu, ww]; ring
      have eY : Y3 a s (u1 * z1) (v1 * z1) z1 0 y2 0 = v1 * z1 * (y2 ^ 2 * ((s - v1) * z1)) := by
        simp only [Y3, rr, tt, vv, ss, uu, ww]; ring
      have eZ : Z3 a s (u1 * z1) (v1 * z1) z1 0 y2 0 = z1 * (y2 ^ 2 * ((s - v1) * z1)) := by
        simp only [Z3, rr, tt, vv, ss, uu, ww]; ring
      rw [eX, eY, eZ]
      change (¬ HasY s (_ - 0) → Rep (_ + 0) _ _ _) ∧ (HasY s (_ - 0) → _)
      rw [add_zero, sub_zero, hasY_some]
      refine ⟨fun h => ⟨?_, by ring, by ring⟩, ?_⟩
      · have : s - v1 ≠ 0 := fun h0 => h (by linear_combination -h0)
        simp [hz1, hy2, this]
      · rintro rfl; simp
    · obtain ⟨hz2, rfl, rfl⟩ := hB
      rw [X3_scale, Y3_scale, Z3_scale]
      obtain ⟨e1, ns1⟩ := (nonsingular_iff a u1 v1).1 hn1
      obtain ⟨e2, ns2⟩ := (nonsingular_iff a u2 v2).1 hn2
      by_cases hx : u1 = u2
      · subst hx
        have hvv : v1 = v2 ∨ v1 = -v2 := sq_eq_sq_iff_eq_or_eq_neg.1 (by rw [e1, e2])
        by_cases hv : v1 = -v2
        · -- A = -B
          obtain rfl : v2 = -v1 := by rw [hv, neg_neg]
          have hAB : (Affine.Point.some u1 v1 hn1 : (M a).Point) = -Affine.Point.some u1 (-v1) hn2 := by
            rw [Affine.Point.neg_some]; simp [Affine.negY]
          have hsum : (Affine.Point.some u1 v1 hn1 : (M a).Point) + Affine.Point.some u1 (-v1) hn2 = 0 := by
            rw [hAB, neg_add_cancel]
          have hdiff : (Affine.Point.some u1 v1 hn1 : (M a).Point) - Affine.Point.some u1 (-v1) hn2 =
              Affine.Point.some u1 v1 hn1 + Affine.Point.some u1 v1 hn1 := by
            rw [sub_eq_add_neg, ← hAB]
          rw [hsum, hdiff]
          have hX : X3 a s u1 v1 1 u1 (-v1) 1 = 0 := by simp only [X3, rr, tt, vv, ss, uu, ww]; linear_combination (-2 * s * u1) * e1 + (2 * s * u1) * e1
          have hZ : Z3 a s u1 v1 1 u1 (-v1) 1 = 0 := by simp only [Z3, rr, tt, vv, ss, uu, ww]; ring
          rw [hX, hZ, Y3_neg e1]
          simp only [zero_mul, rep_zero]
          by_cases hv0 : v1 = 0
          · subst hv0
            have h3 : 3 * u1 ^ 2 + 2 * a * u1 + 1 ≠ 0 := by simpa using ns1
            have h0 : (Affine.Point.some u1 0 hn1 : (M a).Point) + Affine.Point.some u1 0 hn1 = 0 :=
              Affine.Point.add_self_of_Y_eq (by simp [Affine.negY])
            rw [h0]
            exact ⟨fun _ => ⟨trivial, by simp [h3, hz1, hz2], trivial⟩, fun h => absurd h not_hasY_zero⟩
          · have hvn : v1 ≠ (M a).negY u1 v1 := by
              simp only [Affine.negY, zero_mul, sub_zero]
              intro hh
              exact hv0 ((mul_eq_zero.1 (by linear_combination hh : 2 * v1 = 0)).resolve_left h2)
            rw [Affine.Point.add_self_of_Y_ne hvn, hasY_some]
            have hY : (3 * u1 ^ 2 + 2 * a * u1 + 1) *
                ((3 * u1 ^ 2 + 2 * a * u1 + 1) ^ 2 - (a + 3 * u1) * (2 * v1) ^ 2) + v1 * (2 * v1) ^ 3 +
                s * (2 * v1) ^ 3 = (2 * v1) ^ 3 * (s - (M a).addY u1 u1 v1 ((M a).slope u1 u1 v1 v1)) := by
              rw [Affine.slope_of_Y_ne rfl hvn]
              simp only [Affine.addY, Affine.negAddY, Affine.addX, Affine.negY, M]
              have h2v' : v1 - (-v1 - 0 * u1 - 0) = 2 * v1 := by ring
              rw [h2v']
              field_simp
              ring
            rw [hY]
            refine ⟨fun h => ⟨trivial, ?_, trivial⟩, fun h => ⟨trivial, by simp [h], trivial⟩⟩
            have := sub_ne_zero.2 (Ne.symm h)
            simp [this, h2, hv0, hz1, hz2]
        · obtain rfl : v1 = v2 := hvv.resolve_right hv
          have hv0 : v1 ≠ 0 := by rintro rfl; simp at hv
          rw [sub_self]
          refine ⟨fun _ => ?_, fun h => absurd h not_hasY_zero⟩
          have hvn : v1 ≠ (M a).negY u1 v1 := by
            simp only [Affine.negY, zero_mul, sub_zero]
            intro hh
            exact hv0 ((mul_eq_zero.1 (by linear_combination hh : 2 * v1 = 0)).resolve_left h2)
          have h2v : (2 * v1) ≠ 0 := mul_ne_zero h2 hv0
          have h2v' : v1 - (-v1 - 0 * u1 - 0) = 2 * v1 := by ring
          have hX := X3_dbl (s := s) e1
          have hY := Y3_dbl (s := s) e1
          rw [Affine.Point.add_self_of_Y_ne hvn, rep_some, Affine.slope_of_Y_ne rfl hvn]
          simp only [Affine.addY, Affine.negAddY, Affine.addX, Affine.negY, M]
          rw [h2v']
          refine ⟨by rw [Z3_dbl e1]; simp [h2, hv0, hz1, hz2], ?_, ?_⟩
          · have : X3 a s u1 v1 1 u1 v1 1 = ((3 * u1 ^ 2 + 2 * a * u1 + 1) ^ 2 - (a + 2 * u1) * (2 * v1) ^ 2) *
                Z3 a s u1 v1 1 u1 v1 1 / (2 * v1) ^ 2 := by
              rw [eq_div_iff (pow_ne_zero _ h2v), hX]
            rw [this]; field_simp; ring
          · have : Y3 a s u1 v1 1 u1 v1 1 = (-((3 * u1 ^ 2 + 2 * a * u1 + 1) *
                ((3 * u1 ^ 2 + 2 * a * u1 + 1) ^ 2 - (a + 3 * u1) * (2 * v1) ^ 2)) - v1 * (2 * v1) ^ 3) *
                Z3 a s u1 v1 1 u1 v1 1 / (2 * v1) ^ 3 := by
              rw [eq_div_iff (pow_ne_zero _ h2v), hY]
            rw [this]; field_simp; ring
      · have hd : u1 - u2 ≠ 0 := sub_ne_zero.2 hx
        rw [sub_eq_add_neg, Affine.Point.neg_some, Affine.Point.add_of_X_ne hx, Affine.Point.add_of_X_ne hx,
          hasY_some, rep_some]
        have hD : (M a).addY u1 u2 v1 ((M a).slope u1 u2 v1 ((M a).negY u2 v2)) = yD a u1 v1 u2 v2 := by
          rw [Affine.slope_of_X_ne hx]
          simp only [Affine.addY, Affine.negAddY, Affine.addX, Affine.negY, yD, M]
          ring
        rw [hD, X3_generic e1 e2 hx, Y3_generic e1 e2 hx, Z3_generic e1 e2 hx]
        refine ⟨fun h => ⟨?_, ?_, ?_⟩, fun h => by simp [h]⟩
        · have := sub_ne_zero.2 h
          simp [this, hd, hz1, hz2]
        · rw [Affine.slope_of_X_ne hx]; simp only [Affine.addX, M]; ring
        · rw [Affine.slope_of_X_ne hx]; simp only [Affine.addY, Affine.negAddY, Affine.addX, Affine.negY, M]; ring

end Redox.Mont

