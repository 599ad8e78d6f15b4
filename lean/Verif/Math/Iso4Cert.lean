import Mathlib.Algebra.Field.Basic
import Mathlib.Tactic.LinearCombination

/-!
# Two identities behind the 4-isogeny of RFC 7748

Let `(x3, y3)` be the sum of two points of `x² + y² = 1 + d x² y²` and `t = y/x`, `δ = (2 - x² - y²)/x²`. Then
`t3 = (t2 δ1 - t1 δ2)/(t1² - t2²)` and `δ3 = t1 t2 - t3 (t1 δ1 - t2 δ2)/(t1² - t2²)`.
-/

namespace Redox.Iso4Cert

variable {F : Type*} [Field F] {d x1 y1 x2 y2 : F}

theorem absc (h1 : x1 ^ 2 + y1 ^ 2 = 1 + d * x1 ^ 2 * y1 ^ 2) (h2 : x2 ^ 2 + y2 ^ 2 = 1 + d * x2 ^ 2 * y2 ^ 2)
    (n1 : 1 - d * x1 ^ 2 ≠ 0) (n2 : 1 - d * x2 ^ 2 ≠ 0) :
    (x1 * y1 * (2 - x2 ^ 2 - y2 ^ 2) - x2 * y2 * (2 - x1 ^ 2 - y1 ^ 2)) * (1 - d * x1 * x2 * y1 * y2) +
      (y1 * x2 - y2 * x1) * (y1 * y2 - x1 * x2) * (1 + d * x1 * x2 * y1 * y2) = 0 := by
  apply mul_left_cancel₀ (mul_ne_zero (pow_ne_zero 1 n1) (pow_ne_zero 1 n2))
  rw [mul_zero]
  linear_combination (2 * x1 ^ 2 * x2 ^ 3 * y2 * d ^ 2 - 2 * x1 ^ 2 * x2 * y2 * d - 2 * x2 ^ 3 * y2 * d + 2 * x2 * y2)
    * h1 + (- 2 * x1 ^ 3 * y1 * x2 ^ 2 * d ^ 2 + 2 * x1 ^ 3 * y1 * d + 2 * x1 * y1 * x2 ^ 2 * d - 2 * x1 * y1) * h2

set_option maxHeartbeats 2000000 in
theorem ordi (h1 : x1 ^ 2 + y1 ^ 2 = 1 + d * x1 ^ 2 * y1 ^ 2) (h2 : x2 ^ 2 + y2 ^ 2 = 1 + d * x2 ^ 2 * y2 ^ 2)
    (n1 : 1 - d * x1 ^ 2 ≠ 0) (n2 : 1 - d * x2 ^ 2 ≠ 0) :
    (x1 * y2 + x2 * y1) ^ 2 * (1 - d * x1 * x2 * y1 * y2) ^ 2 * y1 * y2 * (y1 * x2 - y2 * x1) -
      (y1 * x2 ^ 3 * (2 - x1 ^ 2 - y1 ^ 2) - y2 * x1 ^ 3 * (2 - x2 ^ 2 - y2 ^ 2)) * (y1 * y2 - x1 * x2) *
        (1 + d * x1 * x2 * y1 * y2) * (1 - d * x1 * x2 * y1 * y2) -
      x1 * x2 * (y1 * x2 - y2 * x1) * (2 * (1 + d * x1 * x2 * y1 * y2) ^ 2 * (1 - d * x1 * x2 * y1 * y2) ^ 2 -
        (x1 * y2 + x2 * y1) ^ 2 * (1 - d * x1 * x2 * y1 * y2) ^ 2 - (y1 * y2 - x1 * x2) ^ 2 * (1 + d * x1 * x2 * y1 * y2) ^ 2) = 0 := by
  apply mul_left_cancel₀ (mul_ne_zero (pow_ne_zero 4 n1) (pow_ne_zero 4 n2))
  rw [mul_zero]
  linear_combination (- 2 * x1 ^ 12 * y1 ^ 2 * x2 ^ 13 * y2 ^ 5 * d ^ 11 + 8 * x1 ^ 12 * y1 ^ 2 * x2 ^ 11 * y2 ^ 5 * d
    ^ 10 - 12 * x1 ^ 12 * y1 ^ 2 * x2 ^ 9 * y2 ^ 5 * d ^ 9 + 8 * x1 ^ 12 * y1 ^ 2 * x2 ^ 7 * y2 ^ 5 * d ^ 8 - 2 * x1 ^
    12 * y1 ^ 2 * x2 ^ 5 * y2 ^ 5 * d ^ 7 - 2 * x1 ^ 12 * x2 ^ 13 * y2 ^ 5 * d ^ 10 + 2 * x1 ^ 12 * x2 ^ 13 * y2 ^ 3 *
    d ^ 9 + 10 * x1 ^ 12 * x2 ^ 11 * y2 ^ 5 * d ^ 9 - 2 * x1 ^ 12 * x2 ^ 11 * y2 ^ 3 * d ^ 9 - 8 * x1 ^ 12 * x2 ^ 11 *
    y2 ^ 3 * d ^ 8 - 20 * x1 ^ 12 * x2 ^ 9 * y2 ^ 5 * d ^ 8 + 8 * x1 ^ 12 * x2 ^ 9 * y2 ^ 3 * d ^ 8 + 12 * x1 ^ 12 *
    x2 ^ 9 * y2 ^ 3 * d ^ 7 + 20 * x1 ^ 12 * x2 ^ 7 * y2 ^ 5 * d ^ 7 - 12 * x1 ^ 12 * x2 ^ 7 * y2 ^ 3 * d ^ 7 - 8 * x1
    ^ 12 * x2 ^ 7 * y2 ^ 3 * d ^ 6 - 10 * x1 ^ 12 * x2 ^ 5 * y2 ^ 5 * d ^ 6 + 8 * x1 ^ 12 * x2 ^ 5 * y2 ^ 3 * d ^ 6 +
    2 * x1 ^ 12 * x2 ^ 5 * y2 ^ 3 * d ^ 5 + 2 * x1 ^ 12 * x2 ^ 3 * y2 ^ 5 * d ^ 5 - 2 * x1 ^ 12 * x2 ^ 3 * y2 ^ 3 * d
    ^ 5 + 2 * x1 ^ 11 * y1 ^ 3 * x2 ^ 14 * y2 ^ 4 * d ^ 11 - 8 * x1 ^ 11 * y1 ^ 3 * x2 ^ 12 * y2 ^ 4 * d ^ 10 + 12 *
    x1 ^ 11 * y1 ^ 3 * x2 ^ 10 * y2 ^ 4 * d ^ 9 - 8 * x1 ^ 11 * y1 ^ 3 * x2 ^ 8 * y2 ^ 4 * d ^ 8 + 2 * x1 ^ 11 * y1 ^
    3 * x2 ^ 6 * y2 ^ 4 * d ^ 7 + 2 * x1 ^ 11 * y1 * x2 ^ 14 * y2 ^ 4 * d ^ 10 - 2 * x1 ^ 11 * y1 * x2 ^ 14 * y2 ^ 2 *
    d ^ 9 - 10 * x1 ^ 11 * y1 * x2 ^ 12 * y2 ^ 4 * d ^ 9 + 8 * x1 ^ 11 * y1 * x2 ^ 12 * y2 ^ 2 * d ^ 8 + 2 * x1 ^ 11 *
    y1 * x2 ^ 10 * y2 ^ 4 * d ^ 9 + 20 * x1 ^ 11 * y1 * x2 ^ 10 * y2 ^ 4 * d ^ 8 - 12 * x1 ^ 11 * y1 * x2 ^ 10 * y2 ^
    2 * d ^ 7 - 8 * x1 ^ 11 * y1 * x2 ^ 8 * y2 ^ 4 * d ^ 8 - 20 * x1 ^ 11 * y1 * x2 ^ 8 * y2 ^ 4 * d ^ 7 + 8 * x1 ^ 11
    * y1 * x2 ^ 8 * y2 ^ 2 * d ^ 6 + 12 * x1 ^ 11 * y1 * x2 ^ 6 * y2 ^ 4 * d ^ 7 + 10 * x1 ^ 11 * y1 * x2 ^ 6 * y2 ^ 4
    * d ^ 6 - 2 * x1 ^ 11 * y1 * x2 ^ 6 * y2 ^ 2 * d ^ 5 - 8 * x1 ^ 11 * y1 * x2 ^ 4 * y2 ^ 4 * d ^ 6 - 2 * x1 ^ 11 *
    y1 * x2 ^ 4 * y2 ^ 4 * d ^ 5 + 2 * x1 ^ 11 * y1 * x2 ^ 2 * y2 ^ 4 * d ^ 5 + 6 * x1 ^ 10 * y1 ^ 2 * x2 ^ 13 * y2 ^
    5 * d ^ 10 + 2 * x1 ^ 10 * y1 ^ 2 * x2 ^ 13 * y2 ^ 3 * d ^ 9 - 22 * x1 ^ 10 * y1 ^ 2 * x2 ^ 11 * y2 ^ 5 * d ^ 9 -
    8 * x1 ^ 10 * y1 ^ 2 * x2 ^ 11 * y2 ^ 3 * d ^ 8 + 28 * x1 ^ 10 * y1 ^ 2 * x2 ^ 9 * y2 ^ 5 * d ^ 8 + 12 * x1 ^ 10 *
    y1 ^ 2 * x2 ^ 9 * y2 ^ 3 * d ^ 7 - 12 * x1 ^ 10 * y1 ^ 2 * x2 ^ 7 * y2 ^ 5 * d ^ 7 - 8 * x1 ^ 10 * y1 ^ 2 * x2 ^ 7
    * y2 ^ 3 * d ^ 6 - 2 * x1 ^ 10 * y1 ^ 2 * x2 ^ 5 * y2 ^ 5 * d ^ 6 + 2 * x1 ^ 10 * y1 ^ 2 * x2 ^ 5 * y2 ^ 3 * d ^ 5
    + 2 * x1 ^ 10 * y1 ^ 2 * x2 ^ 3 * y2 ^ 5 * d ^ 5 + 2 * x1 ^ 10 * x2 ^ 13 * y2 ^ 5 * d ^ 10 + 4 * x1 ^ 10 * x2 ^ 13
    * y2 ^ 5 * d ^ 9 - 4 * x1 ^ 10 * x2 ^ 13 * y2 ^ 3 * d ^ 8 - 2 * x1 ^ 10 * x2 ^ 13 * y2 * d ^ 8 - 8 * x1 ^ 10 * x2
    ^ 11 * y2 ^ 5 * d ^ 9 - 20 * x1 ^ 10 * x2 ^ 11 * y2 ^ 5 * d ^ 8 + 4 * x1 ^ 10 * x2 ^ 11 * y2 ^ 3 * d ^ 9 + 16 * x1
    ^ 10 * x2 ^ 11 * y2 ^ 3 * d ^ 7 + 8 * x1 ^ 10 * x2 ^ 11 * y2 * d ^ 7 + 10 * x1 ^ 10 * x2 ^ 9 * y2 ^ 5 * d ^ 8 + 40
    * x1 ^ 10 * x2 ^ 9 * y2 ^ 5 * d ^ 7 - 16 * x1 ^ 10 * x2 ^ 9 * y2 ^ 3 * d ^ 8 - 24 * x1 ^ 10 * x2 ^ 9 * y2 ^ 3 * d
    ^ 6 - 12 * x1 ^ 10 * x2 ^ 9 * y2 * d ^ 6 - 40 * x1 ^ 10 * x2 ^ 7 * y2 ^ 5 * d ^ 6 + 24 * x1 ^ 10 * x2 ^ 7 * y2 ^ 3
    * d ^ 7 + 16 * x1 ^ 10 * x2 ^ 7 * y2 ^ 3 * d ^ 5 + 8 * x1 ^ 10 * x2 ^ 7 * y2 * d ^ 5 - 10 * x1 ^ 10 * x2 ^ 5 * y2
    ^ 5 * d ^ 6 + 20 * x1 ^ 10 * x2 ^ 5 * y2 ^ 5 * d ^ 5 - 16 * x1 ^ 10 * x2 ^ 5 * y2 ^ 3 * d ^ 6 - 4 * x1 ^ 10 * x2 ^
    5 * y2 ^ 3 * d ^ 4 - 2 * x1 ^ 10 * x2 ^ 5 * y2 * d ^ 4 + 8 * x1 ^ 10 * x2 ^ 3 * y2 ^ 5 * d ^ 5 - 4 * x1 ^ 10 * x2
    ^ 3 * y2 ^ 5 * d ^ 4 + 4 * x1 ^ 10 * x2 ^ 3 * y2 ^ 3 * d ^ 5 - 2 * x1 ^ 10 * x2 * y2 ^ 5 * d ^ 4 - 6 * x1 ^ 9 * y1
    ^ 3 * x2 ^ 14 * y2 ^ 4 * d ^ 10 - 2 * x1 ^ 9 * y1 ^ 3 * x2 ^ 14 * y2 ^ 2 * d ^ 9 + 22 * x1 ^ 9 * y1 ^ 3 * x2 ^ 12
    * y2 ^ 4 * d ^ 9 + 8 * x1 ^ 9 * y1 ^ 3 * x2 ^ 12 * y2 ^ 2 * d ^ 8 - 28 * x1 ^ 9 * y1 ^ 3 * x2 ^ 10 * y2 ^ 4 * d ^
    8 - 12 * x1 ^ 9 * y1 ^ 3 * x2 ^ 10 * y2 ^ 2 * d ^ 7 + 12 * x1 ^ 9 * y1 ^ 3 * x2 ^ 8 * y2 ^ 4 * d ^ 7 + 8 * x1 ^ 9
    * y1 ^ 3 * x2 ^ 8 * y2 ^ 2 * d ^ 6 + 2 * x1 ^ 9 * y1 ^ 3 * x2 ^ 6 * y2 ^ 4 * d ^ 6 - 2 * x1 ^ 9 * y1 ^ 3 * x2 ^ 6
    * y2 ^ 2 * d ^ 5 - 2 * x1 ^ 9 * y1 ^ 3 * x2 ^ 4 * y2 ^ 4 * d ^ 5 - 2 * x1 ^ 9 * y1 * x2 ^ 14 * y2 ^ 4 * d ^ 10 - 4
    * x1 ^ 9 * y1 * x2 ^ 14 * y2 ^ 4 * d ^ 9 + 2 * x1 ^ 9 * y1 * x2 ^ 14 * y2 ^ 2 * d ^ 9 + 4 * x1 ^ 9 * y1 * x2 ^ 14
    * y2 ^ 2 * d ^ 8 + 8 * x1 ^ 9 * y1 * x2 ^ 12 * y2 ^ 4 * d ^ 9 + 20 * x1 ^ 9 * y1 * x2 ^ 12 * y2 ^ 4 * d ^ 8 - 4 *
    x1 ^ 9 * y1 * x2 ^ 12 * y2 ^ 2 * d ^ 9 - 2 * x1 ^ 9 * y1 * x2 ^ 12 * y2 ^ 2 * d ^ 8 - 16 * x1 ^ 9 * y1 * x2 ^ 12 *
    y2 ^ 2 * d ^ 7 - 18 * x1 ^ 9 * y1 * x2 ^ 10 * y2 ^ 4 * d ^ 8 - 40 * x1 ^ 9 * y1 * x2 ^ 10 * y2 ^ 4 * d ^ 7 + 16 *
    x1 ^ 9 * y1 * x2 ^ 10 * y2 ^ 2 * d ^ 8 - 12 * x1 ^ 9 * y1 * x2 ^ 10 * y2 ^ 2 * d ^ 7 + 24 * x1 ^ 9 * y1 * x2 ^ 10
    * y2 ^ 2 * d ^ 6 + 32 * x1 ^ 9 * y1 * x2 ^ 8 * y2 ^ 4 * d ^ 7 + 40 * x1 ^ 9 * y1 * x2 ^ 8 * y2 ^ 4 * d ^ 6 - 24 *
    x1 ^ 9 * y1 * x2 ^ 8 * y2 ^ 2 * d ^ 7 + 28 * x1 ^ 9 * y1 * x2 ^ 8 * y2 ^ 2 * d ^ 6 - 16 * x1 ^ 9 * y1 * x2 ^ 8 *
    y2 ^ 2 * d ^ 5 - 38 * x1 ^ 9 * y1 * x2 ^ 6 * y2 ^ 4 * d ^ 6 - 20 * x1 ^ 9 * y1 * x2 ^ 6 * y2 ^ 4 * d ^ 5 + 16 * x1
    ^ 9 * y1 * x2 ^ 6 * y2 ^ 2 * d ^ 6 - 22 * x1 ^ 9 * y1 * x2 ^ 6 * y2 ^ 2 * d ^ 5 + 4 * x1 ^ 9 * y1 * x2 ^ 6 * y2 ^
    2 * d ^ 4 + 24 * x1 ^ 9 * y1 * x2 ^ 4 * y2 ^ 4 * d ^ 5 + 4 * x1 ^ 9 * y1 * x2 ^ 4 * y2 ^ 4 * d ^ 4 - 4 * x1 ^ 9 *
    y1 * x2 ^ 4 * y2 ^ 2 * d ^ 5 + 6 * x1 ^ 9 * y1 * x2 ^ 4 * y2 ^ 2 * d ^ 4 - 6 * x1 ^ 9 * y1 * x2 ^ 2 * y2 ^ 4 * d ^
    4 - 6 * x1 ^ 8 * y1 ^ 2 * x2 ^ 13 * y2 ^ 5 * d ^ 9 - 2 * x1 ^ 8 * y1 ^ 2 * x2 ^ 13 * y2 ^ 3 * d ^ 9 - 6 * x1 ^ 8 *
    y1 ^ 2 * x2 ^ 13 * y2 ^ 3 * d ^ 8 + 2 * x1 ^ 8 * y1 ^ 2 * x2 ^ 13 * y2 * d ^ 8 + 18 * x1 ^ 8 * y1 ^ 2 * x2 ^ 11 *
    y2 ^ 5 * d ^ 8 + 8 * x1 ^ 8 * y1 ^ 2 * x2 ^ 11 * y2 ^ 3 * d ^ 8 + 24 * x1 ^ 8 * y1 ^ 2 * x2 ^ 11 * y2 ^ 3 * d ^ 7
    - 8 * x1 ^ 8 * y1 ^ 2 * x2 ^ 11 * y2 * d ^ 7 - 12 * x1 ^ 8 * y1 ^ 2 * x2 ^ 9 * y2 ^ 5 * d ^ 7 - 12 * x1 ^ 8 * y1 ^
    2 * x2 ^ 9 * y2 ^ 3 * d ^ 7 - 36 * x1 ^ 8 * y1 ^ 2 * x2 ^ 9 * y2 ^ 3 * d ^ 6 + 12 * x1 ^ 8 * y1 ^ 2 * x2 ^ 9 * y2
    * d ^ 6 - 12 * x1 ^ 8 * y1 ^ 2 * x2 ^ 7 * y2 ^ 5 * d ^ 6 + 8 * x1 ^ 8 * y1 ^ 2 * x2 ^ 7 * y2 ^ 3 * d ^ 6 + 24 * x1
    ^ 8 * y1 ^ 2 * x2 ^ 7 * y2 ^ 3 * d ^ 5 - 8 * x1 ^ 8 * y1 ^ 2 * x2 ^ 7 * y2 * d ^ 5 + 18 * x1 ^ 8 * y1 ^ 2 * x2 ^ 5
    * y2 ^ 5 * d ^ 5 - 2 * x1 ^ 8 * y1 ^ 2 * x2 ^ 5 * y2 ^ 3 * d ^ 5 - 6 * x1 ^ 8 * y1 ^ 2 * x2 ^ 5 * y2 ^ 3 * d ^ 4 +
    2 * x1 ^ 8 * y1 ^ 2 * x2 ^ 5 * y2 * d ^ 4 - 6 * x1 ^ 8 * y1 ^ 2 * x2 ^ 3 * y2 ^ 5 * d ^ 4 - 4 * x1 ^ 8 * x2 ^ 13 *
    y2 ^ 5 * d ^ 9 - 2 * x1 ^ 8 * x2 ^ 13 * y2 ^ 5 * d ^ 8 - 4 * x1 ^ 8 * x2 ^ 13 * y2 ^ 3 * d ^ 8 + 2 * x1 ^ 8 * x2 ^
    13 * y2 ^ 3 * d ^ 7 + 8 * x1 ^ 8 * x2 ^ 13 * y2 * d ^ 7 + 14 * x1 ^ 8 * x2 ^ 11 * y2 ^ 5 * d ^ 8 + 10 * x1 ^ 8 *
    x2 ^ 11 * y2 ^ 5 * d ^ 7 - 12 * x1 ^ 8 * x2 ^ 11 * y2 ^ 3 * d ^ 8 + 28 * x1 ^ 8 * x2 ^ 11 * y2 ^ 3 * d ^ 7 - 8 *
    x1 ^ 8 * x2 ^ 11 * y2 ^ 3 * d ^ 6 - 32 * x1 ^ 8 * x2 ^ 11 * y2 * d ^ 6 - 10 * x1 ^ 8 * x2 ^ 9 * y2 ^ 5 * d ^ 7 -
    20 * x1 ^ 8 * x2 ^ 9 * y2 ^ 5 * d ^ 6 + 50 * x1 ^ 8 * x2 ^ 9 * y2 ^ 3 * d ^ 7 - 72 * x1 ^ 8 * x2 ^ 9 * y2 ^ 3 * d
    ^ 6 + 12 * x1 ^ 8 * x2 ^ 9 * y2 ^ 3 * d ^ 5 + 48 * x1 ^ 8 * x2 ^ 9 * y2 * d ^ 5 - 20 * x1 ^ 8 * x2 ^ 7 * y2 ^ 5 *
    d ^ 6 + 20 * x1 ^ 8 * x2 ^ 7 * y2 ^ 5 * d ^ 5 - 80 * x1 ^ 8 * x2 ^ 7 * y2 ^ 3 * d ^ 6 + 88 * x1 ^ 8 * x2 ^ 7 * y2
    ^ 3 * d ^ 5 - 8 * x1 ^ 8 * x2 ^ 7 * y2 ^ 3 * d ^ 4 - 32 * x1 ^ 8 * x2 ^ 7 * y2 * d ^ 4 + 40 * x1 ^ 8 * x2 ^ 5 * y2
    ^ 5 * d ^ 5 - 10 * x1 ^ 8 * x2 ^ 5 * y2 ^ 5 * d ^ 4 + 60 * x1 ^ 8 * x2 ^ 5 * y2 ^ 3 * d ^ 5 - 52 * x1 ^ 8 * x2 ^ 5
    * y2 ^ 3 * d ^ 4 + 2 * x1 ^ 8 * x2 ^ 5 * y2 ^ 3 * d ^ 3 + 8 * x1 ^ 8 * x2 ^ 5 * y2 * d ^ 3 - 26 * x1 ^ 8 * x2 ^ 3
    * y2 ^ 5 * d ^ 4 + 2 * x1 ^ 8 * x2 ^ 3 * y2 ^ 5 * d ^ 3 - 20 * x1 ^ 8 * x2 ^ 3 * y2 ^ 3 * d ^ 4 + 12 * x1 ^ 8 * x2
    ^ 3 * y2 ^ 3 * d ^ 3 + 6 * x1 ^ 8 * x2 * y2 ^ 5 * d ^ 3 + 2 * x1 ^ 8 * x2 * y2 ^ 3 * d ^ 3 + 6 * x1 ^ 7 * y1 ^ 3 *
    x2 ^ 14 * y2 ^ 4 * d ^ 9 + 6 * x1 ^ 7 * y1 ^ 3 * x2 ^ 14 * y2 ^ 2 * d ^ 8 - 18 * x1 ^ 7 * y1 ^ 3 * x2 ^ 12 * y2 ^
    4 * d ^ 8 + 2 * x1 ^ 7 * y1 ^ 3 * x2 ^ 12 * y2 ^ 2 * d ^ 8 - 24 * x1 ^ 7 * y1 ^ 3 * x2 ^ 12 * y2 ^ 2 * d ^ 7 + 12
    * x1 ^ 7 * y1 ^ 3 * x2 ^ 10 * y2 ^ 4 * d ^ 7 - 8 * x1 ^ 7 * y1 ^ 3 * x2 ^ 10 * y2 ^ 2 * d ^ 7 + 36 * x1 ^ 7 * y1 ^
    3 * x2 ^ 10 * y2 ^ 2 * d ^ 6 + 12 * x1 ^ 7 * y1 ^ 3 * x2 ^ 8 * y2 ^ 4 * d ^ 6 + 12 * x1 ^ 7 * y1 ^ 3 * x2 ^ 8 * y2
    ^ 2 * d ^ 6 - 24 * x1 ^ 7 * y1 ^ 3 * x2 ^ 8 * y2 ^ 2 * d ^ 5 - 18 * x1 ^ 7 * y1 ^ 3 * x2 ^ 6 * y2 ^ 4 * d ^ 5 - 8
    * x1 ^ 7 * y1 ^ 3 * x2 ^ 6 * y2 ^ 2 * d ^ 5 + 6 * x1 ^ 7 * y1 ^ 3 * x2 ^ 6 * y2 ^ 2 * d ^ 4 + 6 * x1 ^ 7 * y1 ^ 3
    * x2 ^ 4 * y2 ^ 4 * d ^ 4 + 2 * x1 ^ 7 * y1 ^ 3 * x2 ^ 4 * y2 ^ 2 * d ^ 4 + 4 * x1 ^ 7 * y1 * x2 ^ 14 * y2 ^ 4 * d
    ^ 9 + 2 * x1 ^ 7 * y1 * x2 ^ 14 * y2 ^ 4 * d ^ 8 - 4 * x1 ^ 7 * y1 * x2 ^ 14 * y2 ^ 2 * d ^ 8 - 2 * x1 ^ 7 * y1 *
    x2 ^ 14 * y2 ^ 2 * d ^ 7 - 14 * x1 ^ 7 * y1 * x2 ^ 12 * y2 ^ 4 * d ^ 8 - 10 * x1 ^ 7 * y1 * x2 ^ 12 * y2 ^ 4 * d ^
    7 + 12 * x1 ^ 7 * y1 * x2 ^ 12 * y2 ^ 2 * d ^ 8 + 8 * x1 ^ 7 * y1 * x2 ^ 12 * y2 ^ 2 * d ^ 6 + 22 * x1 ^ 7 * y1 *
    x2 ^ 10 * y2 ^ 4 * d ^ 7 + 20 * x1 ^ 7 * y1 * x2 ^ 10 * y2 ^ 4 * d ^ 6 - 50 * x1 ^ 7 * y1 * x2 ^ 10 * y2 ^ 2 * d ^
    7 + 40 * x1 ^ 7 * y1 * x2 ^ 10 * y2 ^ 2 * d ^ 6 - 12 * x1 ^ 7 * y1 * x2 ^ 10 * y2 ^ 2 * d ^ 5 - 28 * x1 ^ 7 * y1 *
    x2 ^ 8 * y2 ^ 4 * d ^ 6 - 20 * x1 ^ 7 * y1 * x2 ^ 8 * y2 ^ 4 * d ^ 5 + 80 * x1 ^ 7 * y1 * x2 ^ 8 * y2 ^ 2 * d ^ 6
    - 80 * x1 ^ 7 * y1 * x2 ^ 8 * y2 ^ 2 * d ^ 5 + 8 * x1 ^ 7 * y1 * x2 ^ 8 * y2 ^ 2 * d ^ 4 + 32 * x1 ^ 7 * y1 * x2 ^
    6 * y2 ^ 4 * d ^ 5 + 10 * x1 ^ 7 * y1 * x2 ^ 6 * y2 ^ 4 * d ^ 4 - 60 * x1 ^ 7 * y1 * x2 ^ 6 * y2 ^ 2 * d ^ 5 + 60
    * x1 ^ 7 * y1 * x2 ^ 6 * y2 ^ 2 * d ^ 4 - 2 * x1 ^ 7 * y1 * x2 ^ 6 * y2 ^ 2 * d ^ 3 - 22 * x1 ^ 7 * y1 * x2 ^ 4 *
    y2 ^ 4 * d ^ 4 - 2 * x1 ^ 7 * y1 * x2 ^ 4 * y2 ^ 4 * d ^ 3 + 20 * x1 ^ 7 * y1 * x2 ^ 4 * y2 ^ 2 * d ^ 4 - 16 * x1
    ^ 7 * y1 * x2 ^ 4 * y2 ^ 2 * d ^ 3 + 6 * x1 ^ 7 * y1 * x2 ^ 2 * y2 ^ 4 * d ^ 3 - 2 * x1 ^ 7 * y1 * x2 ^ 2 * y2 ^ 2
    * d ^ 3 + 2 * x1 ^ 6 * y1 ^ 2 * x2 ^ 13 * y2 ^ 5 * d ^ 8 + 6 * x1 ^ 6 * y1 ^ 2 * x2 ^ 13 * y2 ^ 3 * d ^ 8 + 6 * x1
    ^ 6 * y1 ^ 2 * x2 ^ 13 * y2 ^ 3 * d ^ 7 - 6 * x1 ^ 6 * y1 ^ 2 * x2 ^ 13 * y2 * d ^ 7 - 2 * x1 ^ 6 * y1 ^ 2 * x2 ^
    11 * y2 ^ 5 * d ^ 7 - 24 * x1 ^ 6 * y1 ^ 2 * x2 ^ 11 * y2 ^ 3 * d ^ 7 - 24 * x1 ^ 6 * y1 ^ 2 * x2 ^ 11 * y2 ^ 3 *
    d ^ 6 - 2 * x1 ^ 6 * y1 ^ 2 * x2 ^ 11 * y2 * d ^ 7 + 24 * x1 ^ 6 * y1 ^ 2 * x2 ^ 11 * y2 * d ^ 6 - 12 * x1 ^ 6 *
    y1 ^ 2 * x2 ^ 9 * y2 ^ 5 * d ^ 6 + 36 * x1 ^ 6 * y1 ^ 2 * x2 ^ 9 * y2 ^ 3 * d ^ 6 + 36 * x1 ^ 6 * y1 ^ 2 * x2 ^ 9
    * y2 ^ 3 * d ^ 5 + 8 * x1 ^ 6 * y1 ^ 2 * x2 ^ 9 * y2 * d ^ 6 - 36 * x1 ^ 6 * y1 ^ 2 * x2 ^ 9 * y2 * d ^ 5 + 28 *
    x1 ^ 6 * y1 ^ 2 * x2 ^ 7 * y2 ^ 5 * d ^ 5 - 24 * x1 ^ 6 * y1 ^ 2 * x2 ^ 7 * y2 ^ 3 * d ^ 5 - 24 * x1 ^ 6 * y1 ^ 2
    * x2 ^ 7 * y2 ^ 3 * d ^ 4 - 12 * x1 ^ 6 * y1 ^ 2 * x2 ^ 7 * y2 * d ^ 5 + 24 * x1 ^ 6 * y1 ^ 2 * x2 ^ 7 * y2 * d ^
    4 - 22 * x1 ^ 6 * y1 ^ 2 * x2 ^ 5 * y2 ^ 5 * d ^ 4 + 6 * x1 ^ 6 * y1 ^ 2 * x2 ^ 5 * y2 ^ 3 * d ^ 4 + 6 * x1 ^ 6 *
    y1 ^ 2 * x2 ^ 5 * y2 ^ 3 * d ^ 3 + 8 * x1 ^ 6 * y1 ^ 2 * x2 ^ 5 * y2 * d ^ 4 - 6 * x1 ^ 6 * y1 ^ 2 * x2 ^ 5 * y2 *
    d ^ 3 + 6 * x1 ^ 6 * y1 ^ 2 * x2 ^ 3 * y2 ^ 5 * d ^ 3 - 2 * x1 ^ 6 * y1 ^ 2 * x2 ^ 3 * y2 * d ^ 3 + 2 * x1 ^ 6 *
    x2 ^ 13 * y2 ^ 5 * d ^ 8 + 2 * x1 ^ 6 * x2 ^ 13 * y2 ^ 3 * d ^ 8 + 8 * x1 ^ 6 * x2 ^ 13 * y2 ^ 3 * d ^ 7 - 2 * x1
    ^ 6 * x2 ^ 13 * y2 * d ^ 7 - 10 * x1 ^ 6 * x2 ^ 13 * y2 * d ^ 6 - 4 * x1 ^ 6 * x2 ^ 11 * y2 ^ 5 * d ^ 7 + 4 * x1 ^
    6 * x2 ^ 11 * y2 ^ 3 * d ^ 7 - 48 * x1 ^ 6 * x2 ^ 11 * y2 ^ 3 * d ^ 6 + 2 * x1 ^ 6 * x2 ^ 11 * y2 * d ^ 7 + 6 * x1
    ^ 6 * x2 ^ 11 * y2 * d ^ 6 + 40 * x1 ^ 6 * x2 ^ 11 * y2 * d ^ 5 - 10 * x1 ^ 6 * x2 ^ 9 * y2 ^ 5 * d ^ 6 - 42 * x1
    ^ 6 * x2 ^ 9 * y2 ^ 3 * d ^ 6 + 112 * x1 ^ 6 * x2 ^ 9 * y2 ^ 3 * d ^ 5 - 8 * x1 ^ 6 * x2 ^ 9 * y2 * d ^ 6 - 4 * x1
    ^ 6 * x2 ^ 9 * y2 * d ^ 5 - 60 * x1 ^ 6 * x2 ^ 9 * y2 * d ^ 4 + 40 * x1 ^ 6 * x2 ^ 7 * y2 ^ 5 * d ^ 5 + 88 * x1 ^
    6 * x2 ^ 7 * y2 ^ 3 * d ^ 5 - 128 * x1 ^ 6 * x2 ^ 7 * y2 ^ 3 * d ^ 4 + 12 * x1 ^ 6 * x2 ^ 7 * y2 * d ^ 5 - 4 * x1
    ^ 6 * x2 ^ 7 * y2 * d ^ 4 + 40 * x1 ^ 6 * x2 ^ 7 * y2 * d ^ 3 - 50 * x1 ^ 6 * x2 ^ 5 * y2 ^ 5 * d ^ 4 - 82 * x1 ^
    6 * x2 ^ 5 * y2 ^ 3 * d ^ 4 + 72 * x1 ^ 6 * x2 ^ 5 * y2 ^ 3 * d ^ 3 - 8 * x1 ^ 6 * x2 ^ 5 * y2 * d ^ 4 + 6 * x1 ^
    6 * x2 ^ 5 * y2 * d ^ 3 - 10 * x1 ^ 6 * x2 ^ 5 * y2 * d ^ 2 + 28 * x1 ^ 6 * x2 ^ 3 * y2 ^ 5 * d ^ 3 + 36 * x1 ^ 6
    * x2 ^ 3 * y2 ^ 3 * d ^ 3 - 16 * x1 ^ 6 * x2 ^ 3 * y2 ^ 3 * d ^ 2 + 2 * x1 ^ 6 * x2 ^ 3 * y2 * d ^ 3 - 2 * x1 ^ 6
    * x2 ^ 3 * y2 * d ^ 2 - 6 * x1 ^ 6 * x2 * y2 ^ 5 * d ^ 2 - 6 * x1 ^ 6 * x2 * y2 ^ 3 * d ^ 2 - 2 * x1 ^ 5 * y1 ^ 3
    * x2 ^ 14 * y2 ^ 4 * d ^ 8 - 6 * x1 ^ 5 * y1 ^ 3 * x2 ^ 14 * y2 ^ 2 * d ^ 7 + 2 * x1 ^ 5 * y1 ^ 3 * x2 ^ 12 * y2 ^
    4 * d ^ 7 - 6 * x1 ^ 5 * y1 ^ 3 * x2 ^ 12 * y2 ^ 2 * d ^ 7 + 24 * x1 ^ 5 * y1 ^ 3 * x2 ^ 12 * y2 ^ 2 * d ^ 6 + 12
    * x1 ^ 5 * y1 ^ 3 * x2 ^ 10 * y2 ^ 4 * d ^ 6 + 24 * x1 ^ 5 * y1 ^ 3 * x2 ^ 10 * y2 ^ 2 * d ^ 6 - 36 * x1 ^ 5 * y1
    ^ 3 * x2 ^ 10 * y2 ^ 2 * d ^ 5 - 28 * x1 ^ 5 * y1 ^ 3 * x2 ^ 8 * y2 ^ 4 * d ^ 5 - 36 * x1 ^ 5 * y1 ^ 3 * x2 ^ 8 *
    y2 ^ 2 * d ^ 5 + 24 * x1 ^ 5 * y1 ^ 3 * x2 ^ 8 * y2 ^ 2 * d ^ 4 + 22 * x1 ^ 5 * y1 ^ 3 * x2 ^ 6 * y2 ^ 4 * d ^ 4 +
    24 * x1 ^ 5 * y1 ^ 3 * x2 ^ 6 * y2 ^ 2 * d ^ 4 - 6 * x1 ^ 5 * y1 ^ 3 * x2 ^ 6 * y2 ^ 2 * d ^ 3 - 6 * x1 ^ 5 * y1 ^
    3 * x2 ^ 4 * y2 ^ 4 * d ^ 3 - 6 * x1 ^ 5 * y1 ^ 3 * x2 ^ 4 * y2 ^ 2 * d ^ 3 - 2 * x1 ^ 5 * y1 * x2 ^ 14 * y2 ^ 4 *
    d ^ 8 + 2 * x1 ^ 5 * y1 * x2 ^ 14 * y2 ^ 2 * d ^ 7 + 4 * x1 ^ 5 * y1 * x2 ^ 12 * y2 ^ 4 * d ^ 7 - 14 * x1 ^ 5 * y1
    * x2 ^ 12 * y2 ^ 2 * d ^ 7 + 6 * x1 ^ 5 * y1 * x2 ^ 12 * y2 ^ 2 * d ^ 6 + 2 * x1 ^ 5 * y1 * x2 ^ 10 * y2 ^ 4 * d ^
    6 + 62 * x1 ^ 5 * y1 * x2 ^ 10 * y2 ^ 2 * d ^ 6 - 44 * x1 ^ 5 * y1 * x2 ^ 10 * y2 ^ 2 * d ^ 5 - 8 * x1 ^ 5 * y1 *
    x2 ^ 8 * y2 ^ 4 * d ^ 5 - 108 * x1 ^ 5 * y1 * x2 ^ 8 * y2 ^ 2 * d ^ 5 + 76 * x1 ^ 5 * y1 * x2 ^ 8 * y2 ^ 2 * d ^ 4
    + 2 * x1 ^ 5 * y1 * x2 ^ 6 * y2 ^ 4 * d ^ 4 + 92 * x1 ^ 5 * y1 * x2 ^ 6 * y2 ^ 2 * d ^ 4 - 54 * x1 ^ 5 * y1 * x2 ^
    6 * y2 ^ 2 * d ^ 3 + 4 * x1 ^ 5 * y1 * x2 ^ 4 * y2 ^ 4 * d ^ 3 - 38 * x1 ^ 5 * y1 * x2 ^ 4 * y2 ^ 2 * d ^ 3 + 14 *
    x1 ^ 5 * y1 * x2 ^ 4 * y2 ^ 2 * d ^ 2 - 2 * x1 ^ 5 * y1 * x2 ^ 2 * y2 ^ 4 * d ^ 2 + 6 * x1 ^ 5 * y1 * x2 ^ 2 * y2
    ^ 2 * d ^ 2 - 6 * x1 ^ 4 * y1 ^ 2 * x2 ^ 13 * y2 ^ 3 * d ^ 7 - 2 * x1 ^ 4 * y1 ^ 2 * x2 ^ 13 * y2 ^ 3 * d ^ 6 + 6
    * x1 ^ 4 * y1 ^ 2 * x2 ^ 13 * y2 * d ^ 6 - 2 * x1 ^ 4 * y1 ^ 2 * x2 ^ 11 * y2 ^ 5 * d ^ 6 + 24 * x1 ^ 4 * y1 ^ 2 *
    x2 ^ 11 * y2 ^ 3 * d ^ 6 + 8 * x1 ^ 4 * y1 ^ 2 * x2 ^ 11 * y2 ^ 3 * d ^ 5 + 6 * x1 ^ 4 * y1 ^ 2 * x2 ^ 11 * y2 * d
    ^ 6 - 24 * x1 ^ 4 * y1 ^ 2 * x2 ^ 11 * y2 * d ^ 5 + 8 * x1 ^ 4 * y1 ^ 2 * x2 ^ 9 * y2 ^ 5 * d ^ 5 - 36 * x1 ^ 4 *
    y1 ^ 2 * x2 ^ 9 * y2 ^ 3 * d ^ 5 - 12 * x1 ^ 4 * y1 ^ 2 * x2 ^ 9 * y2 ^ 3 * d ^ 4 - 24 * x1 ^ 4 * y1 ^ 2 * x2 ^ 9
    * y2 * d ^ 5 + 36 * x1 ^ 4 * y1 ^ 2 * x2 ^ 9 * y2 * d ^ 4 - 12 * x1 ^ 4 * y1 ^ 2 * x2 ^ 7 * y2 ^ 5 * d ^ 4 + 24 *
    x1 ^ 4 * y1 ^ 2 * x2 ^ 7 * y2 ^ 3 * d ^ 4 + 8 * x1 ^ 4 * y1 ^ 2 * x2 ^ 7 * y2 ^ 3 * d ^ 3 + 36 * x1 ^ 4 * y1 ^ 2 *
    x2 ^ 7 * y2 * d ^ 4 - 24 * x1 ^ 4 * y1 ^ 2 * x2 ^ 7 * y2 * d ^ 3 + 8 * x1 ^ 4 * y1 ^ 2 * x2 ^ 5 * y2 ^ 5 * d ^ 3 -
    6 * x1 ^ 4 * y1 ^ 2 * x2 ^ 5 * y2 ^ 3 * d ^ 3 - 2 * x1 ^ 4 * y1 ^ 2 * x2 ^ 5 * y2 ^ 3 * d ^ 2 - 24 * x1 ^ 4 * y1 ^
    2 * x2 ^ 5 * y2 * d ^ 3 + 6 * x1 ^ 4 * y1 ^ 2 * x2 ^ 5 * y2 * d ^ 2 - 2 * x1 ^ 4 * y1 ^ 2 * x2 ^ 3 * y2 ^ 5 * d ^
    2 + 6 * x1 ^ 4 * y1 ^ 2 * x2 ^ 3 * y2 * d ^ 2 - 4 * x1 ^ 4 * x2 ^ 13 * y2 ^ 3 * d ^ 7 - 4 * x1 ^ 4 * x2 ^ 13 * y2
    ^ 3 * d ^ 6 + 4 * x1 ^ 4 * x2 ^ 13 * y2 * d ^ 6 + 4 * x1 ^ 4 * x2 ^ 13 * y2 * d ^ 5 - 2 * x1 ^ 4 * x2 ^ 11 * y2 ^
    5 * d ^ 6 + 12 * x1 ^ 4 * x2 ^ 11 * y2 ^ 3 * d ^ 6 + 22 * x1 ^ 4 * x2 ^ 11 * y2 ^ 3 * d ^ 5 - 4 * x1 ^ 4 * x2 ^ 11
    * y2 * d ^ 6 - 12 * x1 ^ 4 * x2 ^ 11 * y2 * d ^ 5 - 16 * x1 ^ 4 * x2 ^ 11 * y2 * d ^ 4 + 10 * x1 ^ 4 * x2 ^ 9 * y2
    ^ 5 * d ^ 5 - 2 * x1 ^ 4 * x2 ^ 9 * y2 ^ 3 * d ^ 5 - 48 * x1 ^ 4 * x2 ^ 9 * y2 ^ 3 * d ^ 4 + 16 * x1 ^ 4 * x2 ^ 9
    * y2 * d ^ 5 + 8 * x1 ^ 4 * x2 ^ 9 * y2 * d ^ 4 + 24 * x1 ^ 4 * x2 ^ 9 * y2 * d ^ 3 - 20 * x1 ^ 4 * x2 ^ 7 * y2 ^
    5 * d ^ 4 - 32 * x1 ^ 4 * x2 ^ 7 * y2 ^ 3 * d ^ 4 + 52 * x1 ^ 4 * x2 ^ 7 * y2 ^ 3 * d ^ 3 - 24 * x1 ^ 4 * x2 ^ 7 *
    y2 * d ^ 4 + 8 * x1 ^ 4 * x2 ^ 7 * y2 * d ^ 3 - 16 * x1 ^ 4 * x2 ^ 7 * y2 * d ^ 2 + 20 * x1 ^ 4 * x2 ^ 5 * y2 ^ 5
    * d ^ 3 + 48 * x1 ^ 4 * x2 ^ 5 * y2 ^ 3 * d ^ 3 - 28 * x1 ^ 4 * x2 ^ 5 * y2 ^ 3 * d ^ 2 + 16 * x1 ^ 4 * x2 ^ 5 *
    y2 * d ^ 3 - 12 * x1 ^ 4 * x2 ^ 5 * y2 * d ^ 2 + 4 * x1 ^ 4 * x2 ^ 5 * y2 * d - 10 * x1 ^ 4 * x2 ^ 3 * y2 ^ 5 * d
    ^ 2 - 28 * x1 ^ 4 * x2 ^ 3 * y2 ^ 3 * d ^ 2 + 6 * x1 ^ 4 * x2 ^ 3 * y2 ^ 3 * d - 4 * x1 ^ 4 * x2 ^ 3 * y2 * d ^ 2
    + 4 * x1 ^ 4 * x2 ^ 3 * y2 * d + 2 * x1 ^ 4 * x2 * y2 ^ 5 * d + 6 * x1 ^ 4 * x2 * y2 ^ 3 * d + 2 * x1 ^ 3 * y1 ^ 3
    * x2 ^ 14 * y2 ^ 2 * d ^ 6 + 2 * x1 ^ 3 * y1 ^ 3 * x2 ^ 12 * y2 ^ 4 * d ^ 6 + 6 * x1 ^ 3 * y1 ^ 3 * x2 ^ 12 * y2 ^
    2 * d ^ 6 - 8 * x1 ^ 3 * y1 ^ 3 * x2 ^ 12 * y2 ^ 2 * d ^ 5 - 8 * x1 ^ 3 * y1 ^ 3 * x2 ^ 10 * y2 ^ 4 * d ^ 5 - 24 *
    x1 ^ 3 * y1 ^ 3 * x2 ^ 10 * y2 ^ 2 * d ^ 5 + 12 * x1 ^ 3 * y1 ^ 3 * x2 ^ 10 * y2 ^ 2 * d ^ 4 + 12 * x1 ^ 3 * y1 ^
    3 * x2 ^ 8 * y2 ^ 4 * d ^ 4 + 36 * x1 ^ 3 * y1 ^ 3 * x2 ^ 8 * y2 ^ 2 * d ^ 4 - 8 * x1 ^ 3 * y1 ^ 3 * x2 ^ 8 * y2 ^
    2 * d ^ 3 - 8 * x1 ^ 3 * y1 ^ 3 * x2 ^ 6 * y2 ^ 4 * d ^ 3 - 24 * x1 ^ 3 * y1 ^ 3 * x2 ^ 6 * y2 ^ 2 * d ^ 3 + 2 *
    x1 ^ 3 * y1 ^ 3 * x2 ^ 6 * y2 ^ 2 * d ^ 2 + 2 * x1 ^ 3 * y1 ^ 3 * x2 ^ 4 * y2 ^ 4 * d ^ 2 + 6 * x1 ^ 3 * y1 ^ 3 *
    x2 ^ 4 * y2 ^ 2 * d ^ 2 + 2 * x1 ^ 3 * y1 * x2 ^ 12 * y2 ^ 4 * d ^ 6 + 8 * x1 ^ 3 * y1 * x2 ^ 12 * y2 ^ 2 * d ^ 6
    - 4 * x1 ^ 3 * y1 * x2 ^ 12 * y2 ^ 2 * d ^ 5 - 8 * x1 ^ 3 * y1 * x2 ^ 10 * y2 ^ 4 * d ^ 5 - 38 * x1 ^ 3 * y1 * x2
    ^ 10 * y2 ^ 2 * d ^ 5 + 16 * x1 ^ 3 * y1 * x2 ^ 10 * y2 ^ 2 * d ^ 4 + 12 * x1 ^ 3 * y1 * x2 ^ 8 * y2 ^ 4 * d ^ 4 +
    72 * x1 ^ 3 * y1 * x2 ^ 8 * y2 ^ 2 * d ^ 4 - 24 * x1 ^ 3 * y1 * x2 ^ 8 * y2 ^ 2 * d ^ 3 - 8 * x1 ^ 3 * y1 * x2 ^ 6
    * y2 ^ 4 * d ^ 3 - 68 * x1 ^ 3 * y1 * x2 ^ 6 * y2 ^ 2 * d ^ 3 + 16 * x1 ^ 3 * y1 * x2 ^ 6 * y2 ^ 2 * d ^ 2 + 2 *
    x1 ^ 3 * y1 * x2 ^ 4 * y2 ^ 4 * d ^ 2 + 32 * x1 ^ 3 * y1 * x2 ^ 4 * y2 ^ 2 * d ^ 2 - 4 * x1 ^ 3 * y1 * x2 ^ 4 * y2
    ^ 2 * d - 6 * x1 ^ 3 * y1 * x2 ^ 2 * y2 ^ 2 * d + 2 * x1 ^ 2 * y1 ^ 2 * x2 ^ 13 * y2 ^ 3 * d ^ 6 - 2 * x1 ^ 2 * y1
    ^ 2 * x2 ^ 13 * y2 * d ^ 5 - 8 * x1 ^ 2 * y1 ^ 2 * x2 ^ 11 * y2 ^ 3 * d ^ 5 - 6 * x1 ^ 2 * y1 ^ 2 * x2 ^ 11 * y2 *
    d ^ 5 + 8 * x1 ^ 2 * y1 ^ 2 * x2 ^ 11 * y2 * d ^ 4 + 12 * x1 ^ 2 * y1 ^ 2 * x2 ^ 9 * y2 ^ 3 * d ^ 4 + 24 * x1 ^ 2
    * y1 ^ 2 * x2 ^ 9 * y2 * d ^ 4 - 12 * x1 ^ 2 * y1 ^ 2 * x2 ^ 9 * y2 * d ^ 3 - 8 * x1 ^ 2 * y1 ^ 2 * x2 ^ 7 * y2 ^
    3 * d ^ 3 - 36 * x1 ^ 2 * y1 ^ 2 * x2 ^ 7 * y2 * d ^ 3 + 8 * x1 ^ 2 * y1 ^ 2 * x2 ^ 7 * y2 * d ^ 2 + 2 * x1 ^ 2 *
    y1 ^ 2 * x2 ^ 5 * y2 ^ 3 * d ^ 2 + 24 * x1 ^ 2 * y1 ^ 2 * x2 ^ 5 * y2 * d ^ 2 - 2 * x1 ^ 2 * y1 ^ 2 * x2 ^ 5 * y2
    * d - 6 * x1 ^ 2 * y1 ^ 2 * x2 ^ 3 * y2 * d + 2 * x1 ^ 2 * x2 ^ 13 * y2 ^ 3 * d ^ 6 - 2 * x1 ^ 2 * x2 ^ 13 * y2 *
    d ^ 5 - 8 * x1 ^ 2 * x2 ^ 11 * y2 ^ 3 * d ^ 5 + 2 * x1 ^ 2 * x2 ^ 11 * y2 * d ^ 5 + 6 * x1 ^ 2 * x2 ^ 11 * y2 * d
    ^ 4 + 10 * x1 ^ 2 * x2 ^ 9 * y2 ^ 3 * d ^ 4 - 8 * x1 ^ 2 * x2 ^ 9 * y2 * d ^ 4 - 4 * x1 ^ 2 * x2 ^ 9 * y2 * d ^ 3
    + 12 * x1 ^ 2 * x2 ^ 7 * y2 * d ^ 3 - 4 * x1 ^ 2 * x2 ^ 7 * y2 * d ^ 2 - 10 * x1 ^ 2 * x2 ^ 5 * y2 ^ 3 * d ^ 2 - 8
    * x1 ^ 2 * x2 ^ 5 * y2 * d ^ 2 + 6 * x1 ^ 2 * x2 ^ 5 * y2 * d + 8 * x1 ^ 2 * x2 ^ 3 * y2 ^ 3 * d + 2 * x1 ^ 2 * x2
    ^ 3 * y2 * d - 2 * x1 ^ 2 * x2 ^ 3 * y2 - 2 * x1 ^ 2 * x2 * y2 ^ 3 - 2 * x1 * y1 ^ 3 * x2 ^ 12 * y2 ^ 2 * d ^ 5 +
    8 * x1 * y1 ^ 3 * x2 ^ 10 * y2 ^ 2 * d ^ 4 - 12 * x1 * y1 ^ 3 * x2 ^ 8 * y2 ^ 2 * d ^ 3 + 8 * x1 * y1 ^ 3 * x2 ^ 6
    * y2 ^ 2 * d ^ 2 - 2 * x1 * y1 ^ 3 * x2 ^ 4 * y2 ^ 2 * d - 2 * x1 * y1 * x2 ^ 12 * y2 ^ 2 * d ^ 5 + 10 * x1 * y1 *
    x2 ^ 10 * y2 ^ 2 * d ^ 4 - 20 * x1 * y1 * x2 ^ 8 * y2 ^ 2 * d ^ 3 + 20 * x1 * y1 * x2 ^ 6 * y2 ^ 2 * d ^ 2 - 10 *
    x1 * y1 * x2 ^ 4 * y2 ^ 2 * d + 2 * x1 * y1 * x2 ^ 2 * y2 ^ 2 + 2 * y1 ^ 2 * x2 ^ 11 * y2 * d ^ 4 - 8 * y1 ^ 2 *
    x2 ^ 9 * y2 * d ^ 3 + 12 * y1 ^ 2 * x2 ^ 7 * y2 * d ^ 2 - 8 * y1 ^ 2 * x2 ^ 5 * y2 * d + 2 * y1 ^ 2 * x2 ^ 3 * y2)
    * h1 + (- 2 * x1 ^ 14 * x2 ^ 11 * y2 ^ 3 * d ^ 9 + 8 * x1 ^ 14 * x2 ^ 9 * y2 ^ 3 * d ^ 8 - 12 * x1 ^ 14 * x2 ^ 7 *
    y2 ^ 3 * d ^ 7 + 8 * x1 ^ 14 * x2 ^ 5 * y2 ^ 3 * d ^ 6 - 2 * x1 ^ 14 * x2 ^ 3 * y2 ^ 3 * d ^ 5 + 2 * x1 ^ 13 * y1
    * x2 ^ 12 * y2 ^ 2 * d ^ 9 - 8 * x1 ^ 13 * y1 * x2 ^ 10 * y2 ^ 2 * d ^ 8 + 12 * x1 ^ 13 * y1 * x2 ^ 8 * y2 ^ 2 * d
    ^ 7 - 8 * x1 ^ 13 * y1 * x2 ^ 6 * y2 ^ 2 * d ^ 6 + 2 * x1 ^ 13 * y1 * x2 ^ 4 * y2 ^ 2 * d ^ 5 + 4 * x1 ^ 12 * x2 ^
    11 * y2 ^ 3 * d ^ 9 + 4 * x1 ^ 12 * x2 ^ 11 * y2 ^ 3 * d ^ 8 + 2 * x1 ^ 12 * x2 ^ 11 * y2 * d ^ 8 - 14 * x1 ^ 12 *
    x2 ^ 9 * y2 ^ 3 * d ^ 8 - 16 * x1 ^ 12 * x2 ^ 9 * y2 ^ 3 * d ^ 7 + 2 * x1 ^ 12 * x2 ^ 9 * y2 * d ^ 8 - 8 * x1 ^ 12
    * x2 ^ 9 * y2 * d ^ 7 + 16 * x1 ^ 12 * x2 ^ 7 * y2 ^ 3 * d ^ 7 + 24 * x1 ^ 12 * x2 ^ 7 * y2 ^ 3 * d ^ 6 - 8 * x1 ^
    12 * x2 ^ 7 * y2 * d ^ 7 + 12 * x1 ^ 12 * x2 ^ 7 * y2 * d ^ 6 - 4 * x1 ^ 12 * x2 ^ 5 * y2 ^ 3 * d ^ 6 - 16 * x1 ^
    12 * x2 ^ 5 * y2 ^ 3 * d ^ 5 + 12 * x1 ^ 12 * x2 ^ 5 * y2 * d ^ 6 - 8 * x1 ^ 12 * x2 ^ 5 * y2 * d ^ 5 - 4 * x1 ^
    12 * x2 ^ 3 * y2 ^ 3 * d ^ 5 + 4 * x1 ^ 12 * x2 ^ 3 * y2 ^ 3 * d ^ 4 - 8 * x1 ^ 12 * x2 ^ 3 * y2 * d ^ 5 + 2 * x1
    ^ 12 * x2 ^ 3 * y2 * d ^ 4 + 2 * x1 ^ 12 * x2 * y2 ^ 3 * d ^ 4 + 2 * x1 ^ 12 * x2 * y2 * d ^ 4 - 4 * x1 ^ 11 * y1
    * x2 ^ 12 * y2 ^ 2 * d ^ 9 - 4 * x1 ^ 11 * y1 * x2 ^ 12 * y2 ^ 2 * d ^ 8 + 14 * x1 ^ 11 * y1 * x2 ^ 10 * y2 ^ 2 *
    d ^ 8 + 16 * x1 ^ 11 * y1 * x2 ^ 10 * y2 ^ 2 * d ^ 7 - 2 * x1 ^ 11 * y1 * x2 ^ 8 * y2 ^ 2 * d ^ 8 - 16 * x1 ^ 11 *
    y1 * x2 ^ 8 * y2 ^ 2 * d ^ 7 - 24 * x1 ^ 11 * y1 * x2 ^ 8 * y2 ^ 2 * d ^ 6 + 8 * x1 ^ 11 * y1 * x2 ^ 6 * y2 ^ 2 *
    d ^ 7 + 4 * x1 ^ 11 * y1 * x2 ^ 6 * y2 ^ 2 * d ^ 6 + 16 * x1 ^ 11 * y1 * x2 ^ 6 * y2 ^ 2 * d ^ 5 - 12 * x1 ^ 11 *
    y1 * x2 ^ 4 * y2 ^ 2 * d ^ 6 + 4 * x1 ^ 11 * y1 * x2 ^ 4 * y2 ^ 2 * d ^ 5 - 4 * x1 ^ 11 * y1 * x2 ^ 4 * y2 ^ 2 * d
    ^ 4 + 8 * x1 ^ 11 * y1 * x2 ^ 2 * y2 ^ 2 * d ^ 5 - 2 * x1 ^ 11 * y1 * x2 ^ 2 * y2 ^ 2 * d ^ 4 - 2 * x1 ^ 11 * y1 *
    y2 ^ 2 * d ^ 4 - 2 * x1 ^ 10 * x2 ^ 11 * y2 ^ 3 * d ^ 9 - 8 * x1 ^ 10 * x2 ^ 11 * y2 ^ 3 * d ^ 8 - 2 * x1 ^ 10 *
    x2 ^ 11 * y2 ^ 3 * d ^ 7 - 2 * x1 ^ 10 * x2 ^ 11 * y2 * d ^ 8 - 8 * x1 ^ 10 * x2 ^ 11 * y2 * d ^ 7 + 6 * x1 ^ 10 *
    x2 ^ 9 * y2 ^ 3 * d ^ 8 + 26 * x1 ^ 10 * x2 ^ 9 * y2 ^ 3 * d ^ 7 + 8 * x1 ^ 10 * x2 ^ 9 * y2 ^ 3 * d ^ 6 - 2 * x1
    ^ 10 * x2 ^ 9 * y2 * d ^ 8 + 32 * x1 ^ 10 * x2 ^ 9 * y2 * d ^ 6 - 4 * x1 ^ 10 * x2 ^ 7 * y2 ^ 3 * d ^ 7 - 24 * x1
    ^ 10 * x2 ^ 7 * y2 ^ 3 * d ^ 6 - 12 * x1 ^ 10 * x2 ^ 7 * y2 ^ 3 * d ^ 5 + 8 * x1 ^ 10 * x2 ^ 7 * y2 * d ^ 7 + 20 *
    x1 ^ 10 * x2 ^ 7 * y2 * d ^ 6 - 48 * x1 ^ 10 * x2 ^ 7 * y2 * d ^ 5 - 4 * x1 ^ 10 * x2 ^ 5 * y2 ^ 3 * d ^ 6 - 4 *
    x1 ^ 10 * x2 ^ 5 * y2 ^ 3 * d ^ 5 + 8 * x1 ^ 10 * x2 ^ 5 * y2 ^ 3 * d ^ 4 - 12 * x1 ^ 10 * x2 ^ 5 * y2 * d ^ 6 -
    40 * x1 ^ 10 * x2 ^ 5 * y2 * d ^ 5 + 32 * x1 ^ 10 * x2 ^ 5 * y2 * d ^ 4 + 6 * x1 ^ 10 * x2 ^ 3 * y2 ^ 3 * d ^ 5 +
    16 * x1 ^ 10 * x2 ^ 3 * y2 ^ 3 * d ^ 4 - 2 * x1 ^ 10 * x2 ^ 3 * y2 ^ 3 * d ^ 3 + 8 * x1 ^ 10 * x2 ^ 3 * y2 * d ^ 5
    + 30 * x1 ^ 10 * x2 ^ 3 * y2 * d ^ 4 - 8 * x1 ^ 10 * x2 ^ 3 * y2 * d ^ 3 - 2 * x1 ^ 10 * x2 * y2 ^ 3 * d ^ 4 - 6 *
    x1 ^ 10 * x2 * y2 ^ 3 * d ^ 3 - 2 * x1 ^ 10 * x2 * y2 * d ^ 4 - 8 * x1 ^ 10 * x2 * y2 * d ^ 3 + 2 * x1 ^ 9 * y1 *
    x2 ^ 12 * y2 ^ 2 * d ^ 9 + 8 * x1 ^ 9 * y1 * x2 ^ 12 * y2 ^ 2 * d ^ 8 + 2 * x1 ^ 9 * y1 * x2 ^ 12 * y2 ^ 2 * d ^ 7
    - 6 * x1 ^ 9 * y1 * x2 ^ 10 * y2 ^ 2 * d ^ 8 - 26 * x1 ^ 9 * y1 * x2 ^ 10 * y2 ^ 2 * d ^ 7 - 8 * x1 ^ 9 * y1 * x2
    ^ 10 * y2 ^ 2 * d ^ 6 + 2 * x1 ^ 9 * y1 * x2 ^ 10 * d ^ 8 + 12 * x1 ^ 9 * y1 * x2 ^ 8 * y2 ^ 2 * d ^ 7 + 24 * x1 ^
    9 * y1 * x2 ^ 8 * y2 ^ 2 * d ^ 6 + 12 * x1 ^ 9 * y1 * x2 ^ 8 * y2 ^ 2 * d ^ 5 - 8 * x1 ^ 9 * y1 * x2 ^ 8 * d ^ 7 -
    28 * x1 ^ 9 * y1 * x2 ^ 6 * y2 ^ 2 * d ^ 6 + 4 * x1 ^ 9 * y1 * x2 ^ 6 * y2 ^ 2 * d ^ 5 - 8 * x1 ^ 9 * y1 * x2 ^ 6
    * y2 ^ 2 * d ^ 4 + 12 * x1 ^ 9 * y1 * x2 ^ 6 * d ^ 6 + 42 * x1 ^ 9 * y1 * x2 ^ 4 * y2 ^ 2 * d ^ 5 - 16 * x1 ^ 9 *
    y1 * x2 ^ 4 * y2 ^ 2 * d ^ 4 + 2 * x1 ^ 9 * y1 * x2 ^ 4 * y2 ^ 2 * d ^ 3 - 8 * x1 ^ 9 * y1 * x2 ^ 4 * d ^ 5 - 30 *
    x1 ^ 9 * y1 * x2 ^ 2 * y2 ^ 2 * d ^ 4 + 6 * x1 ^ 9 * y1 * x2 ^ 2 * y2 ^ 2 * d ^ 3 + 2 * x1 ^ 9 * y1 * x2 ^ 2 * d ^
    4 + 8 * x1 ^ 9 * y1 * y2 ^ 2 * d ^ 3 + 4 * x1 ^ 8 * x2 ^ 11 * y2 ^ 3 * d ^ 8 + 4 * x1 ^ 8 * x2 ^ 11 * y2 ^ 3 * d ^
    7 + 10 * x1 ^ 8 * x2 ^ 11 * y2 * d ^ 7 + 10 * x1 ^ 8 * x2 ^ 11 * y2 * d ^ 6 - 10 * x1 ^ 8 * x2 ^ 9 * y2 ^ 3 * d ^
    7 - 10 * x1 ^ 8 * x2 ^ 9 * y2 ^ 3 * d ^ 6 + 8 * x1 ^ 8 * x2 ^ 9 * y2 * d ^ 7 - 28 * x1 ^ 8 * x2 ^ 9 * y2 * d ^ 6 -
    40 * x1 ^ 8 * x2 ^ 9 * y2 * d ^ 5 - 32 * x1 ^ 8 * x2 ^ 7 * y2 * d ^ 6 + 12 * x1 ^ 8 * x2 ^ 7 * y2 * d ^ 5 + 60 *
    x1 ^ 8 * x2 ^ 7 * y2 * d ^ 4 + 20 * x1 ^ 8 * x2 ^ 5 * y2 ^ 3 * d ^ 5 + 20 * x1 ^ 8 * x2 ^ 5 * y2 ^ 3 * d ^ 4 + 48
    * x1 ^ 8 * x2 ^ 5 * y2 * d ^ 5 + 32 * x1 ^ 8 * x2 ^ 5 * y2 * d ^ 4 - 40 * x1 ^ 8 * x2 ^ 5 * y2 * d ^ 3 - 20 * x1 ^
    8 * x2 ^ 3 * y2 ^ 3 * d ^ 4 - 20 * x1 ^ 8 * x2 ^ 3 * y2 ^ 3 * d ^ 3 - 32 * x1 ^ 8 * x2 ^ 3 * y2 * d ^ 4 - 38 * x1
    ^ 8 * x2 ^ 3 * y2 * d ^ 3 + 10 * x1 ^ 8 * x2 ^ 3 * y2 * d ^ 2 + 6 * x1 ^ 8 * x2 * y2 ^ 3 * d ^ 3 + 6 * x1 ^ 8 * x2
    * y2 ^ 3 * d ^ 2 + 8 * x1 ^ 8 * x2 * y2 * d ^ 3 + 12 * x1 ^ 8 * x2 * y2 * d ^ 2 - 4 * x1 ^ 7 * y1 * x2 ^ 12 * y2 ^
    2 * d ^ 8 - 4 * x1 ^ 7 * y1 * x2 ^ 12 * y2 ^ 2 * d ^ 7 + 10 * x1 ^ 7 * y1 * x2 ^ 10 * y2 ^ 2 * d ^ 7 + 10 * x1 ^ 7
    * y1 * x2 ^ 10 * y2 ^ 2 * d ^ 6 - 8 * x1 ^ 7 * y1 * x2 ^ 10 * d ^ 7 - 12 * x1 ^ 7 * y1 * x2 ^ 8 * y2 ^ 2 * d ^ 6 +
    32 * x1 ^ 7 * y1 * x2 ^ 8 * d ^ 6 + 28 * x1 ^ 7 * y1 * x2 ^ 6 * y2 ^ 2 * d ^ 5 - 20 * x1 ^ 7 * y1 * x2 ^ 6 * y2 ^
    2 * d ^ 4 - 48 * x1 ^ 7 * y1 * x2 ^ 6 * d ^ 5 - 52 * x1 ^ 7 * y1 * x2 ^ 4 * y2 ^ 2 * d ^ 4 + 20 * x1 ^ 7 * y1 * x2
    ^ 4 * y2 ^ 2 * d ^ 3 + 32 * x1 ^ 7 * y1 * x2 ^ 4 * d ^ 4 + 42 * x1 ^ 7 * y1 * x2 ^ 2 * y2 ^ 2 * d ^ 3 - 6 * x1 ^ 7
    * y1 * x2 ^ 2 * y2 ^ 2 * d ^ 2 - 8 * x1 ^ 7 * y1 * x2 ^ 2 * d ^ 3 - 12 * x1 ^ 7 * y1 * y2 ^ 2 * d ^ 2 - 2 * x1 ^ 6
    * x2 ^ 11 * y2 ^ 3 * d ^ 7 - 2 * x1 ^ 6 * x2 ^ 11 * y2 * d ^ 7 - 14 * x1 ^ 6 * x2 ^ 11 * y2 * d ^ 6 - 4 * x1 ^ 6 *
    x2 ^ 11 * y2 * d ^ 5 + 2 * x1 ^ 6 * x2 ^ 9 * y2 ^ 3 * d ^ 6 - 2 * x1 ^ 6 * x2 ^ 9 * y2 ^ 3 * d ^ 5 - 4 * x1 ^ 6 *
    x2 ^ 9 * y2 * d ^ 6 + 48 * x1 ^ 6 * x2 ^ 9 * y2 * d ^ 5 + 16 * x1 ^ 6 * x2 ^ 9 * y2 * d ^ 4 + 12 * x1 ^ 6 * x2 ^ 7
    * y2 ^ 3 * d ^ 5 + 8 * x1 ^ 6 * x2 ^ 7 * y2 ^ 3 * d ^ 4 + 36 * x1 ^ 6 * x2 ^ 7 * y2 * d ^ 5 - 52 * x1 ^ 6 * x2 ^ 7
    * y2 * d ^ 4 - 24 * x1 ^ 6 * x2 ^ 7 * y2 * d ^ 3 - 28 * x1 ^ 6 * x2 ^ 5 * y2 ^ 3 * d ^ 4 - 12 * x1 ^ 6 * x2 ^ 5 *
    y2 ^ 3 * d ^ 3 - 64 * x1 ^ 6 * x2 ^ 5 * y2 * d ^ 4 + 8 * x1 ^ 6 * x2 ^ 5 * y2 * d ^ 3 + 16 * x1 ^ 6 * x2 ^ 5 * y2
    * d ^ 2 + 22 * x1 ^ 6 * x2 ^ 3 * y2 ^ 3 * d ^ 3 + 8 * x1 ^ 6 * x2 ^ 3 * y2 ^ 3 * d ^ 2 + 46 * x1 ^ 6 * x2 ^ 3 * y2
    * d ^ 3 + 18 * x1 ^ 6 * x2 ^ 3 * y2 * d ^ 2 - 4 * x1 ^ 6 * x2 ^ 3 * y2 * d - 6 * x1 ^ 6 * x2 * y2 ^ 3 * d ^ 2 - 2
    * x1 ^ 6 * x2 * y2 ^ 3 * d - 12 * x1 ^ 6 * x2 * y2 * d ^ 2 - 8 * x1 ^ 6 * x2 * y2 * d + 2 * x1 ^ 5 * y1 * x2 ^ 12
    * y2 ^ 2 * d ^ 7 - 2 * x1 ^ 5 * y1 * x2 ^ 10 * y2 ^ 2 * d ^ 6 + 2 * x1 ^ 5 * y1 * x2 ^ 10 * y2 ^ 2 * d ^ 5 + 12 *
    x1 ^ 5 * y1 * x2 ^ 10 * d ^ 6 - 4 * x1 ^ 5 * y1 * x2 ^ 8 * y2 ^ 2 * d ^ 5 - 8 * x1 ^ 5 * y1 * x2 ^ 8 * y2 ^ 2 * d
    ^ 4 - 48 * x1 ^ 5 * y1 * x2 ^ 8 * d ^ 5 - 4 * x1 ^ 5 * y1 * x2 ^ 6 * y2 ^ 2 * d ^ 4 + 12 * x1 ^ 5 * y1 * x2 ^ 6 *
    y2 ^ 2 * d ^ 3 + 72 * x1 ^ 5 * y1 * x2 ^ 6 * d ^ 4 + 26 * x1 ^ 5 * y1 * x2 ^ 4 * y2 ^ 2 * d ^ 3 - 8 * x1 ^ 5 * y1
    * x2 ^ 4 * y2 ^ 2 * d ^ 2 - 48 * x1 ^ 5 * y1 * x2 ^ 4 * d ^ 3 - 26 * x1 ^ 5 * y1 * x2 ^ 2 * y2 ^ 2 * d ^ 2 + 2 *
    x1 ^ 5 * y1 * x2 ^ 2 * y2 ^ 2 * d + 12 * x1 ^ 5 * y1 * x2 ^ 2 * d ^ 2 + 8 * x1 ^ 5 * y1 * y2 ^ 2 * d + 4 * x1 ^ 4
    * x2 ^ 11 * y2 * d ^ 6 + 6 * x1 ^ 4 * x2 ^ 11 * y2 * d ^ 5 + 2 * x1 ^ 4 * x2 ^ 9 * y2 ^ 3 * d ^ 5 - 8 * x1 ^ 4 *
    x2 ^ 9 * y2 * d ^ 5 - 22 * x1 ^ 4 * x2 ^ 9 * y2 * d ^ 4 - 8 * x1 ^ 4 * x2 ^ 7 * y2 ^ 3 * d ^ 4 - 8 * x1 ^ 4 * x2 ^
    7 * y2 * d ^ 4 + 28 * x1 ^ 4 * x2 ^ 7 * y2 * d ^ 3 + 12 * x1 ^ 4 * x2 ^ 5 * y2 ^ 3 * d ^ 3 + 32 * x1 ^ 4 * x2 ^ 5
    * y2 * d ^ 3 - 12 * x1 ^ 4 * x2 ^ 5 * y2 * d ^ 2 - 8 * x1 ^ 4 * x2 ^ 3 * y2 ^ 3 * d ^ 2 - 28 * x1 ^ 4 * x2 ^ 3 *
    y2 * d ^ 2 - 2 * x1 ^ 4 * x2 ^ 3 * y2 * d + 2 * x1 ^ 4 * x2 * y2 ^ 3 * d + 8 * x1 ^ 4 * x2 * y2 * d + 2 * x1 ^ 4 *
    x2 * y2 - 2 * x1 ^ 3 * y1 * x2 ^ 10 * y2 ^ 2 * d ^ 5 - 8 * x1 ^ 3 * y1 * x2 ^ 10 * d ^ 5 + 6 * x1 ^ 3 * y1 * x2 ^
    8 * y2 ^ 2 * d ^ 4 + 32 * x1 ^ 3 * y1 * x2 ^ 8 * d ^ 4 - 4 * x1 ^ 3 * y1 * x2 ^ 6 * y2 ^ 2 * d ^ 3 - 48 * x1 ^ 3 *
    y1 * x2 ^ 6 * d ^ 3 - 4 * x1 ^ 3 * y1 * x2 ^ 4 * y2 ^ 2 * d ^ 2 + 32 * x1 ^ 3 * y1 * x2 ^ 4 * d ^ 2 + 6 * x1 ^ 3 *
    y1 * x2 ^ 2 * y2 ^ 2 * d - 8 * x1 ^ 3 * y1 * x2 ^ 2 * d - 2 * x1 ^ 3 * y1 * y2 ^ 2 - 2 * x1 ^ 2 * x2 ^ 11 * y2 * d
    ^ 5 + 6 * x1 ^ 2 * x2 ^ 9 * y2 * d ^ 4 - 4 * x1 ^ 2 * x2 ^ 7 * y2 * d ^ 3 - 4 * x1 ^ 2 * x2 ^ 5 * y2 * d ^ 2 + 6 *
    x1 ^ 2 * x2 ^ 3 * y2 * d - 2 * x1 ^ 2 * x2 * y2 + 2 * x1 * y1 * x2 ^ 10 * d ^ 4 - 8 * x1 * y1 * x2 ^ 8 * d ^ 3 +
    12 * x1 * y1 * x2 ^ 6 * d ^ 2 - 8 * x1 * y1 * x2 ^ 4 * d + 2 * x1 * y1 * x2 ^ 2) * h2

end Redox.Iso4Cert
