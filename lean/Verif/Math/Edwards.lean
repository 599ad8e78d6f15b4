import Mathlib.AlgebraicGeometry.EllipticCurve.Affine.Point
import Mathlib.Tactic.FieldSimp
import Mathlib.Tactic.LinearCombination

/-!
# The group of a complete twisted Edwards curve

Everything here is over an arbitrary field `F` of characteristic other than 2, for `a x² + y² = 1 + d x² y²` with `a` a
nonzero square and `d` not a square. The addition is the explicit Edwards formula. Its group laws are obtained from an
injection into Mathlib's group of `Y² = X³ + 2(a+d)c² X² + ((a-d)c²)² X` that respects addition.
-/

namespace Redox.Edw

open WeierstrassCurve

section keys
variable {F : Type*} [Field F] {a d x1 y1 x2 y2 : F}

theorem key1 (h1 : a * x1 ^ 2 + y1 ^ 2 = 1 + d * x1 ^ 2 * y1 ^ 2) (h2 : a * x2 ^ 2 + y2 ^ 2 = 1 + d * x2 ^ 2 * y2 ^ 2) (hd : d ≠ 0) :
    (((1 + y1) * (1 - y2) * x2 - (1 + y2) * (1 - y1) * x1) ^ 2 * (1 - y1) * (1 - y2) -
      (2 * (a + d) * (1 - y1) * (1 - y2) + (a - d) * ((1 + y1) * (1 - y2) + (1 + y2) * (1 - y1))) *
        (x1 ^ 2 * x2 ^ 2 * (y1 - y2) ^ 2)) *
      ((1 - d * x1 * x2 * y1 * y2) - (y1 * y2 - a * x1 * x2)) -
    (a - d) * ((1 - d * x1 * x2 * y1 * y2) + (y1 * y2 - a * x1 * x2)) * (x1 ^ 2 * x2 ^ 2 * (y1 - y2) ^ 2) *
      (1 - y1) * (1 - y2) = 0 := by
  apply mul_left_cancel₀ (pow_ne_zero 3 hd)
  rw [mul_zero]
  linear_combination (2 * a * d ^ 3 * x1 * x2 ^ 3 * y1 * y2 ^ 3 - a * d ^ 3 * x1 * x2 ^ 3 * y1 ^ 2 * y2 ^ 2 - a *
    d ^ 3 * x1 * x2 ^ 3 * y2 ^ 4 + 6 * d ^ 4 * x1 * x2 ^ 3 * y1 * y2 ^ 3 - 3 * d ^ 4 * x1 * x2 ^ 3 * y1 ^ 2 * y2 ^ 2
    - 3 * d ^ 4 * x1 * x2 ^ 3 * y2 ^ 4 - 3 * a * d ^ 3 * x1 * x2 ^ 3 * y1 * y2 ^ 2 + 3 * a * d ^ 3 * x1 * x2 ^ 3 *
    y1 ^ 2 * y2 - 3 * a * d ^ 3 * x1 * x2 ^ 3 * y2 ^ 3 + d ^ 3 * x1 * x2 * y1 ^ 2 * y2 ^ 4 - 2 * d ^ 3 * x2 ^ 2 * y1
    ^ 2 * y2 ^ 4 - d ^ 4 * x1 * x2 ^ 3 * y1 * y2 ^ 2 + d ^ 4 * x1 * x2 ^ 3 * y1 ^ 2 * y2 - d ^ 4 * x1 * x2 ^ 3 * y2
    ^ 3 - a ^ 2 * d ^ 2 * x1 * x2 ^ 3 * y1 * y2 + 2 * a ^ 2 * d ^ 2 * x1 * x2 ^ 3 * y2 ^ 2 - 3 * d ^ 3 * x1 * x2 *
    y1 * y2 ^ 4 + d ^ 3 * x1 * x2 * y1 ^ 2 * y2 ^ 3 + 2 * d ^ 3 * x2 ^ 2 * y1 * y2 ^ 4 + 2 * d ^ 3 * x2 ^ 2 * y1 ^ 2
    * y2 ^ 3 + d ^ 4 * x1 * x2 ^ 3 * y1 * y2 - 2 * d ^ 4 * x1 * x2 ^ 3 * y2 ^ 2 - a * d ^ 2 * x1 * x2 * y1 * y2 ^ 3
    + a * d ^ 2 * x1 * x2 * y2 ^ 4 + a * d ^ 2 * x2 ^ 2 * y1 ^ 2 * y2 ^ 2 + a * d ^ 2 * x2 ^ 2 * y2 ^ 4 - 3 * a * d
    ^ 3 * x1 * x2 ^ 3 * y1 + 4 * a * d ^ 3 * x1 * x2 ^ 3 * y2 - a ^ 2 * d ^ 2 * x1 * x2 ^ 3 * y1 + 4 * a ^ 2 * d ^ 2
    * x1 * x2 ^ 3 * y2 - 3 * d ^ 3 * x1 * x2 * y1 * y2 ^ 3 - d ^ 3 * x1 * x2 * y1 ^ 2 * y2 ^ 2 + 3 * d ^ 3 * x1 * x2
    * y2 ^ 4 + 8 * d ^ 3 * x2 ^ 2 * y1 * y2 ^ 3 - 3 * d ^ 3 * x2 ^ 2 * y1 ^ 2 * y2 ^ 2 - 3 * d ^ 3 * x2 ^ 2 * y2 ^ 4
    - a * d ^ 2 * x1 * x2 * y1 * y2 ^ 2 + 4 * a * d ^ 2 * x1 * x2 * y2 ^ 3 - 3 * a * d ^ 2 * x2 ^ 2 * y1 * y2 ^ 2 +
    a * d ^ 2 * x2 ^ 2 * y1 ^ 2 * y2 - 3 * a * d ^ 2 * x2 ^ 2 * y2 ^ 3 + a * d ^ 3 * x1 * x2 ^ 3 - a ^ 3 * d * x1 *
    x2 ^ 3 + d ^ 2 * y1 ^ 2 * y2 ^ 4 + 3 * d ^ 3 * x1 * x2 * y1 * y2 ^ 2 - d ^ 3 * x1 * x2 * y1 ^ 2 * y2 + 3 * d ^ 3
    * x1 * x2 * y2 ^ 3 - 5 * d ^ 3 * x2 ^ 2 * y1 * y2 ^ 2 + d ^ 3 * x2 ^ 2 * y1 ^ 2 * y2 - 5 * d ^ 3 * x2 ^ 2 * y2 ^
    3 + a * d ^ 2 * x1 * x2 * y1 * y2 - a * d ^ 2 * x1 * x2 * y2 ^ 2 - 4 * a * d ^ 2 * x2 ^ 2 * y1 * y2 + 6 * a * d
    ^ 2 * x2 ^ 2 * y2 ^ 2 - a ^ 2 * d * x1 * x2 * y2 ^ 2 - 2 * a ^ 2 * d * x2 ^ 2 * y2 ^ 2 - 3 * d ^ 2 * y1 * y2 ^ 4
    + d ^ 2 * y1 ^ 2 * y2 ^ 3 + 3 * d ^ 3 * x1 * x2 * y1 * y2 - 3 * d ^ 3 * x1 * x2 * y2 ^ 2 + 4 * d ^ 3 * x2 ^ 2 *
    y1 * y2 - 6 * d ^ 3 * x2 ^ 2 * y2 ^ 2 - a * d * y2 ^ 4 + a * d ^ 2 * x1 * x2 * y1 - 4 * a * d ^ 2 * x1 * x2 * y2
    - a * d ^ 2 * x2 ^ 2 * y1 + 6 * a * d ^ 2 * x2 ^ 2 * y2 + 3 * a ^ 2 * d * x2 ^ 2 * y2 - 4 * d ^ 2 * y1 * y2 ^ 3
    - d ^ 2 * y1 ^ 2 * y2 ^ 2 + 3 * d ^ 2 * y2 ^ 4 - 3 * d ^ 3 * x1 * x2 * y2 - d ^ 3 * x2 ^ 2 * y1 + 3 * d ^ 3 * x2
    ^ 2 * y2 + 3 * a * d * y2 ^ 3 + 3 * a * d ^ 2 * x2 ^ 2 + a ^ 2 * d * x1 * x2 - 3 * a ^ 2 * d * x2 ^ 2 + a ^ 3 *
    x2 ^ 2 + 2 * d ^ 2 * y1 * y2 ^ 2 - d ^ 2 * y1 ^ 2 * y2 + 6 * d ^ 2 * y2 ^ 3 - d ^ 3 * x2 ^ 2 - 2 * a * d * y2 ^
    2 + a ^ 2 * y2 ^ 2 + 4 * d ^ 2 * y1 * y2 - 3 * a * d * y2 + d ^ 2 * y1 - 6 * d ^ 2 * y2 + 3 * a * d - a ^ 2 - 3
    * d ^ 2) * h1 + (3 * a * d ^ 3 * x1 ^ 3 * x2 * y1 * y2 ^ 2 + d ^ 3 * x1 * x2 * y1 ^ 4 * y2 ^ 2 + d ^ 4 * x1 ^ 3
    * x2 * y1 * y2 ^ 2 + 6 * a * d ^ 3 * x1 ^ 3 * x2 * y1 * y2 - 3 * a * d ^ 3 * x1 ^ 3 * x2 * y1 ^ 2 - 3 * a * d ^
    3 * x1 ^ 3 * x2 * y2 ^ 2 + a ^ 2 * d ^ 2 * x1 ^ 3 * x2 * y1 * y2 - a ^ 2 * d ^ 2 * x1 ^ 3 * x2 * y1 ^ 2 - a ^ 2
    * d ^ 2 * x1 ^ 3 * x2 * y2 ^ 2 + d ^ 3 * x1 * x2 * y1 ^ 3 * y2 ^ 2 - 3 * d ^ 3 * x1 * x2 * y1 ^ 4 * y2 + d ^ 4 *
    x1 ^ 3 * x2 * y1 * y2 - a * d ^ 2 * x1 * x2 * y1 ^ 2 * y2 ^ 2 + a * d ^ 2 * x1 * x2 * y1 ^ 3 * y2 - 2 * a * d ^
    2 * x1 ^ 2 * y1 ^ 2 * y2 ^ 2 + 3 * a * d ^ 3 * x1 ^ 3 * x2 * y1 - 4 * a * d ^ 3 * x1 ^ 3 * x2 * y2 + a ^ 2 * d ^
    2 * x1 ^ 3 * x2 * y1 - 4 * a ^ 2 * d ^ 2 * x1 ^ 3 * x2 * y2 - 4 * d ^ 3 * x1 * x2 * y1 ^ 2 * y2 ^ 2 + 3 * d ^ 3
    * x1 * x2 * y1 ^ 3 * y2 - 4 * a * d ^ 2 * x1 * x2 * y1 ^ 2 * y2 + a * d ^ 2 * x1 * x2 * y1 ^ 3 + 3 * a * d ^ 2 *
    x1 ^ 2 * y1 * y2 ^ 2 + 2 * a * d ^ 2 * x1 ^ 2 * y1 ^ 2 * y2 - a * d ^ 3 * x1 ^ 3 * x2 + a ^ 3 * d * x1 ^ 3 * x2
    - d ^ 2 * y1 ^ 4 * y2 ^ 2 - d ^ 3 * x1 * x2 * y1 * y2 ^ 2 + 2 * d ^ 3 * x1 * x2 * y1 ^ 2 * y2 + 2 * d ^ 3 * x1 *
    x2 * y1 ^ 3 + d ^ 3 * x1 ^ 2 * y1 * y2 ^ 2 - a * d ^ 2 * x1 * x2 * y1 * y2 + a * d ^ 2 * x1 * x2 * y2 ^ 2 + 4 *
    a * d ^ 2 * x1 ^ 2 * y1 * y2 - 3 * a * d ^ 2 * x1 ^ 2 * y1 ^ 2 - 3 * a * d ^ 2 * x1 ^ 2 * y2 ^ 2 + a ^ 2 * d *
    x1 * x2 * y1 ^ 2 + a ^ 2 * d * x1 ^ 2 * y1 ^ 2 + a ^ 2 * d * x1 ^ 2 * y2 ^ 2 + 3 * d ^ 2 * y1 ^ 3 * y2 ^ 2 - d ^
    2 * y1 ^ 4 * y2 - 3 * d ^ 3 * x1 * x2 * y1 * y2 - 2 * d ^ 3 * x1 * x2 * y1 ^ 2 + 3 * d ^ 3 * x1 * x2 * y2 ^ 2 +
    4 * d ^ 3 * x1 ^ 2 * y1 * y2 + a * d * y1 ^ 2 * y2 ^ 2 - a * d ^ 2 * x1 * x2 * y1 + 4 * a * d ^ 2 * x1 * x2 * y2
    + a * d ^ 2 * x1 ^ 2 * y1 - 6 * a * d ^ 2 * x1 ^ 2 * y2 - 3 * a ^ 2 * d * x1 ^ 2 * y2 - 2 * d ^ 2 * y1 ^ 2 * y2
    ^ 2 + 4 * d ^ 2 * y1 ^ 3 * y2 - 2 * d ^ 3 * x1 * x2 * y1 + d ^ 3 * x1 * x2 * y2 + 3 * d ^ 3 * x1 ^ 2 * y1 - d ^
    3 * x1 ^ 2 * y2 - 3 * a * d * y1 ^ 2 * y2 - 3 * a * d ^ 2 * x1 ^ 2 - a ^ 2 * d * x1 * x2 + 3 * a ^ 2 * d * x1 ^
    2 - a ^ 3 * x1 ^ 2 - 3 * d ^ 2 * y1 * y2 ^ 2 - 5 * d ^ 2 * y1 ^ 2 * y2 + d ^ 2 * y1 ^ 3 + 2 * d ^ 3 * x1 * x2 -
    d ^ 3 * x1 ^ 2 + 3 * a * d * y1 ^ 2 - a * d * y2 ^ 2 - a ^ 2 * y1 ^ 2 - 4 * d ^ 2 * y1 * y2 - 3 * d ^ 2 * y1 ^ 2
    + 3 * d ^ 2 * y2 ^ 2 + 3 * a * d * y2 - d ^ 2 * y1 + 6 * d ^ 2 * y2 - 3 * a * d + a ^ 2 + 3 * d ^ 2) * h2

theorem key2 (h1 : a * x1 ^ 2 + y1 ^ 2 = 1 + d * x1 ^ 2 * y1 ^ 2) (h2 : a * x2 ^ 2 + y2 ^ 2 = 1 + d * x2 ^ 2 * y2 ^ 2) (hd : d ≠ 0) :
    (((1 + y1) * (1 - y2) * x2 - (1 + y2) * (1 - y1) * x1) *
        (2 * (y1 * y2 - a * x1 * x2) - 2 * (1 - d * x1 * x2 * y1 * y2) * y1) +
      2 * (1 + y1) * ((1 - d * x1 * x2 * y1 * y2) - (y1 * y2 - a * x1 * x2)) * x2 * (y1 - y2)) * (x1 * y2 + y1 * x2) +
    2 * ((1 - d * x1 * x2 * y1 * y2) + (y1 * y2 - a * x1 * x2)) * (1 - y1) * x1 * x2 * (y1 - y2) *
      (1 + d * x1 * x2 * y1 * y2) = 0 := by
  apply mul_left_cancel₀ (pow_ne_zero 1 hd)
  rw [mul_zero]
  linear_combination (2 * d ^ 2 * x1 * x2 ^ 3 * y1 * y2 ^ 3 - 2 * d ^ 2 * x1 * x2 ^ 3 * y1 ^ 2 * y2 ^ 2 + 2 * d ^
    2 * x1 * x2 ^ 3 * y1 * y2 ^ 2 - 2 * d ^ 2 * x1 * x2 ^ 3 * y2 ^ 3 - 2 * a * d * x1 * x2 ^ 3 * y1 * y2 + 2 * a * d
    * x1 * x2 ^ 3 * y2 ^ 2 + 2 * a * d * x1 * x2 ^ 3 * y2 - 2 * d * x1 * x2 * y1 * y2 ^ 3 - 2 * a ^ 2 * x1 * x2 ^ 3
    - 2 * d * x1 * x2 * y1 * y2 ^ 2 + 2 * d * x1 * x2 * y2 ^ 3 - 2 * d * x2 ^ 2 * y1 ^ 2 * y2 + 2 * d * x2 ^ 2 * y2
    ^ 3 - 2 * a * x1 * x2 * y2 ^ 2 + 2 * d * x1 * x2 * y2 ^ 2 + 2 * d * x2 ^ 2 * y1 * y2 - 2 * a * x2 ^ 2 * y2 + 2 *
    a * x1 * x2 - 2 * y2 ^ 3 + 2 * y2) * h1 + (2 * a * d * x1 ^ 3 * x2 * y1 * y2 - 2 * a * d * x1 ^ 3 * x2 * y1 ^ 2
    - 2 * a * d * x1 ^ 3 * x2 * y2 + 2 * d * x1 * x2 * y1 ^ 3 * y2 + 2 * a ^ 2 * x1 ^ 3 * x2 - 2 * d * x1 * x2 * y1
    ^ 2 * y2 + 2 * d * x1 * x2 * y1 ^ 3 + 2 * a * x1 * x2 * y1 ^ 2 - 2 * d * x1 * x2 * y1 * y2 - 2 * d * x1 ^ 2 * y1
    * y2 + 2 * a * x1 ^ 2 * y2 - 2 * d * x1 * x2 * y1 + 2 * d * x1 * x2 * y2 - 2 * a * x1 * x2 + 2 * y1 ^ 2 * y2 - 2
    * y2) * h2

theorem key3 (h1 : a * x1 ^ 2 + y1 ^ 2 = 1 + d * x1 ^ 2 * y1 ^ 2) (hd : d ≠ 0) :
    (x1 ^ 2 * (3 * (a - d) * (1 + y1) ^ 2 + 4 * (a + d) * (1 + y1) * (1 - y1) + (a - d) * (1 - y1) ^ 2) ^ 2 -
      32 * (a + d) * (1 + y1) ^ 2 * (1 - y1) ^ 2 - 32 * (a - d) * (1 + y1) ^ 3 * (1 - y1)) *
      ((1 - d * x1 ^ 2 * y1 ^ 2) - (y1 ^ 2 - a * x1 ^ 2)) -
    16 * (a - d) * ((1 - d * x1 ^ 2 * y1 ^ 2) + (y1 ^ 2 - a * x1 ^ 2)) * (1 + y1) ^ 2 * (1 - y1) ^ 2 = 0 := by
  apply mul_left_cancel₀ (pow_ne_zero 0 hd)
  rw [mul_zero]
  linear_combination (64 * d ^ 2 * x1 ^ 2 * y1 ^ 4 - 64 * a * d * x1 ^ 2 * y1 ^ 3 + 64 * d ^ 2 * x1 ^ 2 * y1 ^ 3 -
    160 * a * d * x1 ^ 2 * y1 ^ 2 + 16 * a ^ 2 * x1 ^ 2 * y1 ^ 2 + 16 * d ^ 2 * x1 ^ 2 * y1 ^ 2 - 64 * a * d * x1 ^
    2 * y1 - 16 * a * y1 ^ 4 + 64 * a ^ 2 * x1 ^ 2 * y1 + 80 * d * y1 ^ 4 - 64 * a * y1 ^ 3 + 64 * a ^ 2 * x1 ^ 2 +
    64 * d * y1 ^ 3 - 64 * a * y1 ^ 2 - 64 * d * y1 ^ 2 + 64 * a * y1 - 64 * d * y1 + 80 * a - 16 * d) * h1

theorem key4 (h1 : a * x1 ^ 2 + y1 ^ 2 = 1 + d * x1 ^ 2 * y1 ^ 2) (hd : d ≠ 0) :
    (x1 ^ 2 * (3 * (a - d) * (1 + y1) ^ 2 + 4 * (a + d) * (1 + y1) * (1 - y1) + (a - d) * (1 - y1) ^ 2) *
        (2 * (y1 ^ 2 - a * x1 ^ 2) - 2 * (1 - d * x1 ^ 2 * y1 ^ 2) * y1) +
      8 * (1 + y1) ^ 2 * (1 - y1) * ((1 - d * x1 ^ 2 * y1 ^ 2) - (y1 ^ 2 - a * x1 ^ 2))) * (2 * x1 * y1) +
    8 * ((1 - d * x1 ^ 2 * y1 ^ 2) + (y1 ^ 2 - a * x1 ^ 2)) * (1 + y1) * (1 - y1) ^ 2 * x1 *
      (1 + d * x1 ^ 2 * y1 ^ 2) = 0 := by
  apply mul_left_cancel₀ (pow_ne_zero 0 hd)
  rw [mul_zero]
  linear_combination (8 * d * x1 ^ 3 * y1 ^ 5 + 24 * d * x1 ^ 3 * y1 ^ 4 + 8 * d * x1 ^ 3 * y1 ^ 3 - 16 * a * x1 ^
    3 * y1 ^ 2 + 8 * d * x1 ^ 3 * y1 ^ 2 - 32 * a * x1 ^ 3 * y1 + 16 * x1 * y1 ^ 4 + 24 * x1 * y1 ^ 3 - 24 * x1 * y1
    ^ 2 - 8 * x1 * y1 - 8 * x1) * h1

theorem closure (h1 : a * x1 ^ 2 + y1 ^ 2 = 1 + d * x1 ^ 2 * y1 ^ 2)
    (h2 : a * x2 ^ 2 + y2 ^ 2 = 1 + d * x2 ^ 2 * y2 ^ 2) (hd : d ≠ 0) :
    a * (x1 * y2 + y1 * x2) ^ 2 * (1 - d * x1 * x2 * y1 * y2) ^ 2 +
        (y1 * y2 - a * x1 * x2) ^ 2 * (1 + d * x1 * x2 * y1 * y2) ^ 2 =
        (1 - d * x1 * x2 * y1 * y2) ^ 2 * (1 + d * x1 * x2 * y1 * y2) ^ 2 +
        d * (x1 * y2 + y1 * x2) ^ 2 * (y1 * y2 - a * x1 * x2) ^ 2 := by
  apply mul_left_cancel₀ hd
  linear_combination (d ^ 4 * x1 ^ 2 * x2 ^ 4 * y1 ^ 2 * y2 ^ 4 - a * d ^ 2 * x1 ^ 2 * x2 ^ 2 * y2 ^ 2 -
    a * d ^ 2 * x2 ^ 4 * y2 ^ 2 - d ^ 2 * x2 ^ 2 * y1 ^ 2 * y2 ^ 2 - d ^ 2 * x2 ^ 2 * y2 ^ 4 + a ^ 2 * d * x2 ^ 4 +
    4 * a * d * x2 ^ 2 * y2 ^ 2 - d ^ 2 * x2 ^ 2 * y2 ^ 2 + d * y2 ^ 4 - 2 * a ^ 2 * x2 ^ 2 - 2 * a * y2 ^ 2 +
    2 * a) * h1 + (a * d ^ 3 * x1 ^ 4 * x2 ^ 2 * y1 ^ 2 * y2 ^ 2 + d ^ 3 * x1 ^ 2 * x2 ^ 2 * y1 ^ 4 * y2 ^ 2 -
    d ^ 3 * x1 ^ 2 * x2 ^ 2 * y1 ^ 2 * y2 ^ 2 - a ^ 2 * d * x1 ^ 2 * x2 ^ 2 - 2 * a * d * x1 ^ 2 * y1 ^ 2 -
    a * d * x1 ^ 2 * y2 ^ 2 - a * d * x2 ^ 2 * y1 ^ 2 - d * y1 ^ 2 * y2 ^ 2 + a * d * x2 ^ 2 + 2 * a ^ 2 * x1 ^ 2 +
    2 * a * y1 ^ 2 + d * y2 ^ 2 - 2 * a + d) * h2

end keys

/-- `a` is a nonzero square, `d` is not a square, and the characteristic is not two. -/
class EdCurve {F : Type*} [Field F] (a d : F) : Prop where
  two : (2 : F) ≠ 0
  sq : IsSquare a
  ne : a ≠ 0
  nsq : ¬ IsSquare d

/-- The affine points of the twisted Edwards curve `a x² + y² = 1 + d x² y²`. -/
@[ext] structure EPt {F : Type*} [Field F] (a d : F) where
  x : F
  y : F
  h : a * x ^ 2 + y ^ 2 = 1 + d * x ^ 2 * y ^ 2

variable {F : Type*} [Field F]

instance {a d : F} [DecidableEq F] : DecidableEq (EPt a d) := fun P Q =>
  decidable_of_iff (P.x = Q.x ∧ P.y = Q.y) (EPt.ext_iff).symm

section complete
variable {a d : F} [he : EdCurve a d]

omit he in
theorem d_ne (a : F) {d : F} [he : EdCurve a d] : d ≠ 0 := fun h => he.nsq (h ▸ ⟨0, by simp⟩)

theorem a_ne_d : a - d ≠ 0 := fun h => he.nsq (by
  rw [← sub_eq_zero.1 h]; exact he.sq)

omit he in
theorem EPt.x_eq_zero_of {a d : F} [EdCurve a d] (P : EPt a d) (h : P.y ^ 2 = 1) : P.x = 0 := by
  have h1 := P.h
  rw [h] at h1
  have : (a - d) * P.x ^ 2 = 0 := by linear_combination h1
  rcases mul_eq_zero.1 this with h | h
  · exact absurd h a_ne_d
  · simpa using h

theorem complete_aux (P Q : EPt a d) (ε : F) (hε : ε ^ 2 = 1) (h : d * P.x * Q.x * P.y * Q.y = ε) : False := by
  obtain ⟨α, hα⟩ := he.sq
  have h1 := P.h
  have h2 := Q.h
  obtain ⟨x1, y1, _⟩ := P
  obtain ⟨x2, y2, _⟩ := Q
  simp only at h h1 h2
  have hε0 : ε ≠ 0 := by rintro rfl; simp at hε
  have hne : d * x1 * x2 * y1 * y2 ≠ 0 := h ▸ hε0
  have hx1 : x1 ≠ 0 := by rintro rfl; simp at hne
  have hy1 : y1 ≠ 0 := by rintro rfl; simp at hne
  have hx2 : x2 ≠ 0 := by rintro rfl; simp at hne
  have hα0 : α ≠ 0 := by rintro rfl; exact he.ne (by simpa using hα)
  have hee : d ^ 2 * x1 ^ 2 * x2 ^ 2 * y1 ^ 2 * y2 ^ 2 = 1 := by rw [← hε, ← h]; ring
  have key : ∀ s : F, s ^ 2 = 1 → (α * x1 + s * ε * y1) ^ 2 = d * (x1 * y1 * (α * x2 + s * y2)) ^ 2 := by
    intro s hs
    rw [← h]
    rw [hα] at h1 h2
    linear_combination h1 - d * x1 ^ 2 * y1 ^ 2 * h2 - (1 - y1 ^ 2) * hee +
      (d ^ 2 * x1 ^ 2 * x2 ^ 2 * y1 ^ 4 * y2 ^ 2 - d * x1 ^ 2 * y1 ^ 2 * y2 ^ 2) * hs
  have sqd : ∀ u v : F, v ≠ 0 → u ^ 2 = d * v ^ 2 → False := by
    intro u v hv huv
    exact he.nsq ⟨u / v, by field_simp; linear_combination -huv⟩
  have hz : ∀ s : F, s ^ 2 = 1 → α * x2 + s * y2 = 0 := by
    intro s hs
    by_contra hne
    exact sqd _ _ (mul_ne_zero (mul_ne_zero hx1 hy1) hne) (key s hs)
  have e1 := hz 1 (by ring)
  have e2 := hz (-1) (by ring)
  have : 2 * (α * x2) = 0 := by linear_combination e1 + e2
  rcases mul_eq_zero.1 this with h | h
  · exact he.two h
  · exact mul_ne_zero hα0 hx2 h

theorem complete_sub (P Q : EPt a d) : 1 - d * P.x * Q.x * P.y * Q.y ≠ 0 := fun h =>
  complete_aux P Q 1 (by ring) (by linear_combination -h)

theorem complete_add (P Q : EPt a d) : 1 + d * P.x * Q.x * P.y * Q.y ≠ 0 := fun h =>
  complete_aux P Q (-1) (by ring) (by linear_combination h)

end complete

section ops
variable {a d : F} [he : EdCurve a d]

instance : Zero (EPt a d) := ⟨⟨0, 1, by ring⟩⟩

instance : Neg (EPt a d) := ⟨fun P => ⟨-P.x, P.y, by linear_combination P.h⟩⟩

/-- The Edwards addition law. -/
instance : Add (EPt a d) := ⟨fun P Q =>
  ⟨(P.x * Q.y + P.y * Q.x) / (1 + d * P.x * Q.x * P.y * Q.y),
   (P.y * Q.y - a * P.x * Q.x) / (1 - d * P.x * Q.x * P.y * Q.y), by
    have h1 := complete_add P Q
    have h2 := complete_sub P Q
    have e1 := P.h
    have e2 := Q.h
    rw [div_pow, div_pow]
    have key : a * (P.x * Q.y + P.y * Q.x) ^ 2 * (1 - d * P.x * Q.x * P.y * Q.y) ^ 2 +
        (P.y * Q.y - a * P.x * Q.x) ^ 2 * (1 + d * P.x * Q.x * P.y * Q.y) ^ 2 =
        (1 - d * P.x * Q.x * P.y * Q.y) ^ 2 * (1 + d * P.x * Q.x * P.y * Q.y) ^ 2 +
        d * (P.x * Q.y + P.y * Q.x) ^ 2 * (P.y * Q.y - a * P.x * Q.x) ^ 2 := closure e1 e2 (d_ne a)
    generalize P.x * Q.y + P.y * Q.x = nx at *
    generalize P.y * Q.y - a * P.x * Q.x = n at *
    generalize 1 - d * P.x * Q.x * P.y * Q.y = m at *
    generalize 1 + d * P.x * Q.x * P.y * Q.y = mx at *
    field_simp
    linear_combination key⟩⟩

omit he in
theorem neg_x (P : EPt a d) : (-P).x = -P.x := rfl
omit he in
theorem neg_y (P : EPt a d) : (-P).y = P.y := rfl
omit he in
theorem zero_x : (0 : EPt a d).x = 0 := rfl
omit he in
theorem zero_y : (0 : EPt a d).y = 1 := rfl
theorem add_x (P Q : EPt a d) :
    (P + Q).x = (P.x * Q.y + P.y * Q.x) / (1 + d * P.x * Q.x * P.y * Q.y) := rfl
theorem add_y (P Q : EPt a d) :
    (P + Q).y = (P.y * Q.y - a * P.x * Q.x) / (1 - d * P.x * Q.x * P.y * Q.y) := rfl

theorem add_comm' (P Q : EPt a d) : P + Q = Q + P := by
  ext
  · rw [add_x, add_x]; congr 1 <;> ring
  · rw [add_y, add_y]; congr 1 <;> ring

theorem zero_add' (P : EPt a d) : 0 + P = P := by
  ext
  · rw [add_x, zero_x, zero_y]; simp
  · rw [add_y, zero_x, zero_y]; simp

end ops

section chord
variable {a d x1 y1 x2 y2 c : F}

/-- The abscissa of the chord-and-tangent sum, for two images with distinct `y`. -/
theorem chordX {X1 Y1 X2 Y2 X3 l : F} (two : (2 : F) ≠ 0) (hc : c ≠ 0) (hk : a - d ≠ 0) (hd : d ≠ 0)
    (hx1 : x1 ≠ 0) (hx2 : x2 ≠ 0) (hy1 : 1 - y1 ≠ 0) (hy2 : 1 - y2 ≠ 0) (hy : y1 - y2 ≠ 0)
    (h1 : a * x1 ^ 2 + y1 ^ 2 = 1 + d * x1 ^ 2 * y1 ^ 2) (h2 : a * x2 ^ 2 + y2 ^ 2 = 1 + d * x2 ^ 2 * y2 ^ 2)
    (hX1 : X1 = c ^ 2 * (a - d) * (1 + y1) / (1 - y1)) (hX2 : X2 = c ^ 2 * (a - d) * (1 + y2) / (1 - y2))
    (hY1 : Y1 = 2 * c * X1 / x1) (hY2 : Y2 = 2 * c * X2 / x2)
    (hl : l = (Y1 - Y2) / (X1 - X2)) (hX3 : X3 = l ^ 2 - 2 * (a + d) * c ^ 2 - X1 - X2) :
    l = c * ((1 + y1) * (1 - y2) * x2 - (1 + y2) * (1 - y1) * x1) / (x1 * x2 * (y1 - y2)) ∧
    X3 * ((1 - d * x1 * x2 * y1 * y2) - (y1 * y2 - a * x1 * x2)) =
      c ^ 2 * (a - d) * ((1 - d * x1 * x2 * y1 * y2) + (y1 * y2 - a * x1 * x2)) := by
  have hdX : X1 - X2 = 2 * c ^ 2 * (a - d) * (y1 - y2) / ((1 - y1) * (1 - y2)) := by
    rw [hX1, hX2]; field_simp; ring
  have hl' : l = c * ((1 + y1) * (1 - y2) * x2 - (1 + y2) * (1 - y1) * x1) / (x1 * x2 * (y1 - y2)) := by
    rw [hl, hdX, hY1, hY2, hX1, hX2]; field_simp
  refine ⟨hl', ?_⟩
  have hM : (x1 ^ 2 * x2 ^ 2 * (y1 - y2) ^ 2) * (1 - y1) * (1 - y2) ≠ 0 := by positivity
  have e : (x1 ^ 2 * x2 ^ 2 * (y1 - y2) ^ 2) * (1 - y1) * (1 - y2) * X3 =
      c ^ 2 * (((1 + y1) * (1 - y2) * x2 - (1 + y2) * (1 - y1) * x1) ^ 2 * (1 - y1) * (1 - y2) -
      (2 * (a + d) * (1 - y1) * (1 - y2) + (a - d) * ((1 + y1) * (1 - y2) + (1 + y2) * (1 - y1))) *
        (x1 ^ 2 * x2 ^ 2 * (y1 - y2) ^ 2)) := by
    rw [hX3, hl', hX1, hX2]; field_simp; ring
  apply mul_left_cancel₀ hM
  linear_combination ((1 - d * x1 * x2 * y1 * y2) - (y1 * y2 - a * x1 * x2)) * e + c ^ 2 * key1 h1 h2 hd

/-- The ordinate of the chord sum. -/
theorem chordY {X1 Y1 X3 Y3 l : F} (hd : d ≠ 0)
    (hx1 : x1 ≠ 0) (hx2 : x2 ≠ 0) (hy1 : 1 - y1 ≠ 0) (hy : y1 - y2 ≠ 0)
    (h1 : a * x1 ^ 2 + y1 ^ 2 = 1 + d * x1 ^ 2 * y1 ^ 2) (h2 : a * x2 ^ 2 + y2 ^ 2 = 1 + d * x2 ^ 2 * y2 ^ 2)
    (hX1 : X1 = c ^ 2 * (a - d) * (1 + y1) / (1 - y1)) (hY1 : Y1 = 2 * c * X1 / x1)
    (hl : l = c * ((1 + y1) * (1 - y2) * x2 - (1 + y2) * (1 - y1) * x1) / (x1 * x2 * (y1 - y2)))
    (hmn : (1 - d * x1 * x2 * y1 * y2) - (y1 * y2 - a * x1 * x2) ≠ 0)
    (hX3 : X3 * ((1 - d * x1 * x2 * y1 * y2) - (y1 * y2 - a * x1 * x2)) =
      c ^ 2 * (a - d) * ((1 - d * x1 * x2 * y1 * y2) + (y1 * y2 - a * x1 * x2)))
    (hY3 : Y3 = l * (X1 - X3) - Y1) :
    Y3 * (x1 * y2 + y1 * x2) = 2 * c * X3 * (1 + d * x1 * x2 * y1 * y2) := by
  have k2 := key2 h1 h2 hd
  rw [← eq_div_iff hmn] at hX3
  generalize (1 - d * x1 * x2 * y1 * y2) = m at *
  generalize (y1 * y2 - a * x1 * x2) = n at *
  generalize (x1 * y2 + y1 * x2) = nx at *
  generalize (1 + d * x1 * x2 * y1 * y2) = mx at *
  rw [hY3, hl, hX3, hY1, hX1]
  have hM : (1 - y1) * (m - n) * x1 * x2 * (y1 - y2) ≠ 0 := by positivity
  have e : (1 - y1) * (m - n) * x1 * x2 * (y1 - y2) *
      ((c * ((1 + y1) * (1 - y2) * x2 - (1 + y2) * (1 - y1) * x1) / (x1 * x2 * (y1 - y2)) *
        (c ^ 2 * (a - d) * (1 + y1) / (1 - y1) - c ^ 2 * (a - d) * (m + n) / (m - n)) -
        2 * c * (c ^ 2 * (a - d) * (1 + y1) / (1 - y1)) / x1) * nx -
        2 * c * (c ^ 2 * (a - d) * (m + n) / (m - n)) * mx) =
      -c ^ 3 * (a - d) * ((((1 + y1) * (1 - y2) * x2 - (1 + y2) * (1 - y1) * x1) * (2 * n - 2 * m * y1) +
      2 * (1 + y1) * (m - n) * x2 * (y1 - y2)) * nx + 2 * (m + n) * (1 - y1) * x1 * x2 * (y1 - y2) * mx) := by
    field_simp; ring
  rw [k2, mul_zero] at e
  exact sub_eq_zero.1 ((mul_eq_zero.1 e).resolve_left hM)

/-- The abscissa of the tangent sum. -/
theorem tangentX {X1 Y1 X3 l : F} (two : (2 : F) ≠ 0) (hc : c ≠ 0) (hk : a - d ≠ 0) (hd : d ≠ 0)
    (hx1 : x1 ≠ 0) (hy1 : 1 - y1 ≠ 0) (hy1' : 1 + y1 ≠ 0)
    (h1 : a * x1 ^ 2 + y1 ^ 2 = 1 + d * x1 ^ 2 * y1 ^ 2)
    (hX1 : X1 = c ^ 2 * (a - d) * (1 + y1) / (1 - y1))
    (hY1 : Y1 = 2 * c * X1 / x1)
    (hl : l = (3 * X1 ^ 2 + 2 * (2 * (a + d) * c ^ 2) * X1 + ((a - d) * c ^ 2) ^ 2) / (Y1 + Y1))
    (hX3 : X3 = l ^ 2 - 2 * (a + d) * c ^ 2 - X1 - X1) :
    l = c * x1 * (3 * (a - d) * (1 + y1) ^ 2 + 4 * (a + d) * (1 + y1) * (1 - y1) + (a - d) * (1 - y1) ^ 2) /
        (4 * (1 + y1) * (1 - y1)) ∧
    X3 * ((1 - d * x1 ^ 2 * y1 ^ 2) - (y1 ^ 2 - a * x1 ^ 2)) =
      c ^ 2 * (a - d) * ((1 - d * x1 ^ 2 * y1 ^ 2) + (y1 ^ 2 - a * x1 ^ 2)) := by
  have h4 : (4 : F) ≠ 0 := by
    have : (4 : F) = 2 * 2 := by norm_num
    rw [this]; exact mul_ne_zero two two
  have h16 : (16 : F) ≠ 0 := by
    have : (16 : F) = 4 * 4 := by norm_num
    rw [this]; exact mul_ne_zero h4 h4
  have hl' : l = c * x1 *
      (3 * (a - d) * (1 + y1) ^ 2 + 4 * (a + d) * (1 + y1) * (1 - y1) + (a - d) * (1 - y1) ^ 2) /
        (4 * (1 + y1) * (1 - y1)) := by
    have hYY : Y1 + Y1 = 4 * c ^ 3 * (a - d) * (1 + y1) / ((1 - y1) * x1) := by
      rw [hY1, hX1]; field_simp; ring
    rw [hl, hYY, hX1]; field_simp; ring
  refine ⟨hl', ?_⟩
  have hM : 16 * (1 + y1) ^ 2 * (1 - y1) ^ 2 ≠ 0 := by positivity
  have e : 16 * (1 + y1) ^ 2 * (1 - y1) ^ 2 * X3 =
      c ^ 2 * (x1 ^ 2 * (3 * (a - d) * (1 + y1) ^ 2 + 4 * (a + d) * (1 + y1) * (1 - y1) +
        (a - d) * (1 - y1) ^ 2) ^ 2 -
      32 * (a + d) * (1 + y1) ^ 2 * (1 - y1) ^ 2 - 32 * (a - d) * (1 + y1) ^ 3 * (1 - y1)) := by
    rw [hX3, hl', hX1]; field_simp; ring
  apply mul_left_cancel₀ hM
  linear_combination ((1 - d * x1 ^ 2 * y1 ^ 2) - (y1 ^ 2 - a * x1 ^ 2)) * e + c ^ 2 * key3 h1 hd

/-- The ordinate of the tangent sum. -/
theorem tangentY {X1 Y1 X3 Y3 l : F} (two : (2 : F) ≠ 0) (hd : d ≠ 0)
    (hx1 : x1 ≠ 0) (hy1 : 1 - y1 ≠ 0) (hy1' : 1 + y1 ≠ 0)
    (h1 : a * x1 ^ 2 + y1 ^ 2 = 1 + d * x1 ^ 2 * y1 ^ 2)
    (hX1 : X1 = c ^ 2 * (a - d) * (1 + y1) / (1 - y1)) (hY1 : Y1 = 2 * c * X1 / x1)
    (hl : l = c * x1 *
      (3 * (a - d) * (1 + y1) ^ 2 + 4 * (a + d) * (1 + y1) * (1 - y1) + (a - d) * (1 - y1) ^ 2) /
        (4 * (1 + y1) * (1 - y1)))
    (hmn : (1 - d * x1 ^ 2 * y1 ^ 2) - (y1 ^ 2 - a * x1 ^ 2) ≠ 0)
    (hX3 : X3 * ((1 - d * x1 ^ 2 * y1 ^ 2) - (y1 ^ 2 - a * x1 ^ 2)) =
      c ^ 2 * (a - d) * ((1 - d * x1 ^ 2 * y1 ^ 2) + (y1 ^ 2 - a * x1 ^ 2)))
    (hY3 : Y3 = l * (X1 - X3) - Y1) :
    Y3 * (2 * x1 * y1) = 2 * c * X3 * (1 + d * x1 ^ 2 * y1 ^ 2) := by
  have h4 : (4 : F) ≠ 0 := by
    have : (4 : F) = 2 * 2 := by norm_num
    rw [this]; exact mul_ne_zero two two
  have k2 := key4 h1 hd
  rw [← eq_div_iff hmn] at hX3
  generalize (1 - d * x1 ^ 2 * y1 ^ 2) = m at *
  generalize (y1 ^ 2 - a * x1 ^ 2) = n at *
  generalize (2 * x1 * y1) = nx at *
  generalize (1 + d * x1 ^ 2 * y1 ^ 2) = mx at *
  rw [hY3, hl, hX3, hY1, hX1]
  generalize 3 * (a - d) * (1 + y1) ^ 2 + 4 * (a + d) * (1 + y1) * (1 - y1) + (a - d) * (1 - y1) ^ 2 = L at *
  have hM : 4 * (1 + y1) * (1 - y1) ^ 2 * (m - n) * x1 ≠ 0 := by positivity
  have e : 4 * (1 + y1) * (1 - y1) ^ 2 * (m - n) * x1 *
      ((c * x1 * L / (4 * (1 + y1) * (1 - y1)) *
        (c ^ 2 * (a - d) * (1 + y1) / (1 - y1) - c ^ 2 * (a - d) * (m + n) / (m - n)) -
        2 * c * (c ^ 2 * (a - d) * (1 + y1) / (1 - y1)) / x1) * nx -
        2 * c * (c ^ 2 * (a - d) * (m + n) / (m - n)) * mx) =
      -c ^ 3 * (a - d) * ((x1 ^ 2 * L * (2 * n - 2 * m * y1) + 8 * (1 + y1) ^ 2 * (1 - y1) * (m - n)) * nx +
        8 * (m + n) * (1 + y1) * (1 - y1) ^ 2 * x1 * mx) := by
    field_simp; ring
  rw [k2, mul_zero] at e
  exact sub_eq_zero.1 ((mul_eq_zero.1 e).resolve_left hM)

end chord

section image
variable [DecidableEq F]

/-- The curve `Y² = X³ + 2(a+d)c² X² + ((a-d)c²)² X`. -/
abbrev WE (a d c : F) : Affine F := ⟨0, 2 * (a + d) * c ^ 2, 0, ((a - d) * c ^ 2) ^ 2, 0⟩

variable {a d c : F}

omit [DecidableEq F] in
theorem we_equation (X Y : F) : (WE a d c).Equation X Y ↔
    Y ^ 2 = X ^ 3 + 2 * (a + d) * c ^ 2 * X ^ 2 + ((a - d) * c ^ 2) ^ 2 * X := by
  rw [Affine.equation_iff]; simp

omit [DecidableEq F] in
theorem we_nonsingular [he : EdCurve a d] (hc : c ≠ 0) {X Y : F} :
    (WE a d c).Nonsingular X Y ↔ (WE a d c).Equation X Y := by
  refine (Affine.equation_iff_nonsingular_of_Δ_ne_zero ?_).symm
  have : (WE a d c).Δ = 2 ^ 8 * c ^ 12 * (a * d) * (a - d) ^ 4 := by
    simp only [WeierstrassCurve.Δ, WeierstrassCurve.b₂, WeierstrassCurve.b₄, WeierstrassCurve.b₆,
      WeierstrassCurve.b₈]
    ring
  rw [this]
  have := he.two; have := he.ne; have := d_ne a (d := d); have := a_ne_d (a := a) (d := d)
  positivity

/-- `A` is the image of the Edwards point `P`. -/
def Im (P : EPt a d) : (WE a d c).Point → Prop
  | .zero => P.x = 0 ∧ P.y = 1
  | .some X Y _ => P.y ≠ 1 ∧ X * (1 - P.y) = c ^ 2 * (a - d) * (1 + P.y) ∧ Y * P.x = 2 * c * X

omit [DecidableEq F] in
theorem im_zero (P : EPt a d) : Im P (0 : (WE a d c).Point) ↔ P = 0 := by
  constructor
  · rintro ⟨h1, h2⟩; ext <;> assumption
  · rintro rfl; exact ⟨rfl, rfl⟩

variable [he : EdCurve a d]

omit [DecidableEq F] in
/-- Points other than `(0,1)` and `(0,-1)` have images with explicit coordinates. -/
theorem im_coords {P : EPt a d} (hx : P.x ≠ 0) {X Y : F}
    (h1 : X * (1 - P.y) = c ^ 2 * (a - d) * (1 + P.y)) (h2 : Y * P.x = 2 * c * X) :
    1 - P.y ≠ 0 ∧ 1 + P.y ≠ 0 ∧ X = c ^ 2 * (a - d) * (1 + P.y) / (1 - P.y) ∧ Y = 2 * c * X / P.x := by
  have e1 : 1 - P.y ≠ 0 := fun h => hx (P.x_eq_zero_of (by rw [← sub_eq_zero.1 h]; ring))
  have e2 : 1 + P.y ≠ 0 := fun h => hx (P.x_eq_zero_of (by rw [← neg_eq_of_add_eq_zero_right h]; ring))
  exact ⟨e1, e2, by rw [eq_div_iff e1, h1], by rw [eq_div_iff hx, h2]⟩

omit [DecidableEq F] he in
/-- The only points with `x = 0` are the identity and the point of order two. -/
theorem y_of_x {P : EPt a d} (hx : P.x = 0) (hy : P.y ≠ 1) : P.y = -1 := by
  have h := P.h
  rw [hx] at h
  have : (P.y - 1) * (P.y + 1) = 0 := by linear_combination h
  rcases mul_eq_zero.1 this with h | h
  · exact absurd (sub_eq_zero.1 h) hy
  · exact eq_neg_of_add_eq_zero_left h

omit [DecidableEq F] in
theorem im_two {P : EPt a d} (hx : P.x = 0) {X Y : F} (hn : (WE a d c).Nonsingular X Y)
    (h : Im P (.some X Y hn : (WE a d c).Point)) : P.y = -1 ∧ X = 0 ∧ Y = 0 := by
  obtain ⟨h0, h1, h2⟩ := h
  have hy := y_of_x hx h0
  rw [hy] at h1
  have hX : X = 0 := by
    have : X * 2 = 0 := by linear_combination h1
    exact (mul_eq_zero.1 this).resolve_right he.two
  refine ⟨hy, hX, ?_⟩
  have := (we_equation X Y).1 hn.1
  rw [hX] at this
  simpa using this

omit [DecidableEq F] in
/-- Finishing step: the abscissa relation alone shows that the sum is not the identity. -/
theorem im_mk (hc : c ≠ 0) (P : EPt a d) {X Y : F} (hn : (WE a d c).Nonsingular X Y)
    (h1 : X * (1 - P.y) = c ^ 2 * (a - d) * (1 + P.y)) (h2 : Y * P.x = 2 * c * X) :
    Im P (.some X Y hn : (WE a d c).Point) := by
  refine ⟨fun h => ?_, h1, h2⟩
  rw [h] at h1
  have : c ^ 2 * (a - d) * 2 = 0 := by linear_combination -h1
  have hk := a_ne_d (a := a) (d := d)
  have h2 := he.two
  exact (by positivity : c ^ 2 * (a - d) * 2 ≠ 0) this

theorem im_add_two (hc : c ≠ 0) (P Q : EPt a d) (A B : (WE a d c).Point) (hx : P.x = 0) (hA : Im P A)
    (hB : Im Q B) : Im (P + Q) (A + B) := by
  rcases A with _ | ⟨X1, Y1, hn1⟩
  · rw [show P = 0 from (im_zero (c := c) P).1 hA, zero_add']
    change Im Q ((0 : (WE a d c).Point) + B)
    rw [zero_add]; exact hB
  rcases B with _ | ⟨X2, Y2, hn2⟩
  · rw [show Q = 0 from (im_zero (c := c) Q).1 hB, add_comm', zero_add']
    change Im P (_ + (0 : (WE a d c).Point))
    rw [add_zero]; exact hA
  obtain ⟨hy, rfl, rfl⟩ := im_two hx hn1 hA
  by_cases hx2 : Q.x = 0
  · obtain ⟨hy2, rfl, rfl⟩ := im_two hx2 hn2 hB
    rw [Affine.Point.add_self_of_Y_eq (by simp [Affine.negY]), im_zero]
    ext
    · rw [add_x, hx, hx2, zero_x]; simp
    · rw [add_y, hx, hx2, hy, hy2, zero_y]; simp
  obtain ⟨h0, h1, h2⟩ := hB
  obtain ⟨e1, e2, eX, eY⟩ := im_coords hx2 h1 h2
  have hk := a_ne_d (a := a) (d := d)
  have hX2 : (0 : F) ≠ X2 := by
    rw [eX]; exact (by positivity : c ^ 2 * (a - d) * (1 + Q.y) / (1 - Q.y) ≠ 0).symm
  have ex : (P + Q).x = -Q.x := by rw [add_x, hx, hy]; simp
  have ey : (P + Q).y = -Q.y := by rw [add_y, hx, hy]; simp
  have hX2' := hX2.symm
  have hsl : (WE a d c).slope 0 X2 0 Y2 = 2 * c / Q.x := by
    rw [Affine.slope_of_X_ne hX2, eY]; field_simp; ring
  rw [Affine.Point.add_of_X_ne hX2]
  have hE := Q.h
  have aX : (WE a d c).addX 0 X2 ((WE a d c).slope 0 X2 0 Y2) = (2 * c / Q.x) ^ 2 - 2 * (a + d) * c ^ 2 - X2 := by
    rw [hsl]; simp [Affine.addX]
  apply im_mk hc
  · rw [ey, aX, eX]
    field_simp
    linear_combination (-4) * hE
  · rw [ex]
    simp only [Affine.addY, Affine.negAddY, Affine.negY]
    rw [hsl]
    field_simp
    ring

/-- The image of a sum is the sum of the images. -/
theorem im_add (hc : c ≠ 0) (P Q : EPt a d) (A B : (WE a d c).Point) (hA : Im P A) (hB : Im Q B) :
    Im (P + Q) (A + B) := by
  by_cases hx1 : P.x = 0
  · exact im_add_two hc P Q A B hx1 hA hB
  by_cases hx2 : Q.x = 0
  · rw [add_comm', add_comm A B]; exact im_add_two hc Q P B A hx2 hB hA
  rcases A with _ | ⟨X1, Y1, hn1⟩
  · exact absurd hA.1 hx1
  rcases B with _ | ⟨X2, Y2, hn2⟩
  · exact absurd hB.1 hx2
  obtain ⟨e1, e1', eX1, eY1⟩ := im_coords hx1 hA.2.1 hA.2.2
  obtain ⟨e2, e2', eX2, eY2⟩ := im_coords hx2 hB.2.1 hB.2.2
  have hk := a_ne_d (a := a) (d := d)
  have two := he.two
  have hd := d_ne a (d := d)
  have hX1 : X1 ≠ 0 := by rw [eX1]; positivity
  have cs := complete_sub P Q
  have ca := complete_add P Q
  have fin : ∀ m n X3 : F, m ≠ 0 → X3 * (m - n) = c ^ 2 * (a - d) * (m + n) → m - n ≠ 0 := by
    intro m n X3 hm h h0
    rw [h0, ← sub_eq_zero.1 h0] at h
    have : c ^ 2 * (a - d) * (2 * m) = 0 := by linear_combination -h
    exact (by positivity : c ^ 2 * (a - d) * (2 * m) ≠ 0) this
  have fin2 : ∀ m n X3 : F, m ≠ 0 → X3 * (m - n) = c ^ 2 * (a - d) * (m + n) →
      X3 * (1 - n / m) = c ^ 2 * (a - d) * (1 + n / m) := by
    intro m n X3 hm h
    field_simp
    linear_combination h
  by_cases hy : P.y = Q.y
  · have hX : X1 = X2 := by rw [eX1, eX2, hy]
    have hxx : (P.x - Q.x) * (P.x + Q.x) = 0 := by
      have h1 := P.h
      have h2 := Q.h
      rw [hy] at h1
      have hq : (a - d * Q.y ^ 2) * ((P.x - Q.x) * (P.x + Q.x)) = 0 := by linear_combination h1 - h2
      refine (mul_eq_zero.1 hq).resolve_left fun h0 => ?_
      have : Q.y ^ 2 = 1 := by linear_combination h2 - Q.x ^ 2 * h0
      exact hx2 (Q.x_eq_zero_of this)
    rcases mul_eq_zero.1 hxx with hxe | hxe
    · -- doubling
      have hxe := sub_eq_zero.1 hxe
      have hPQ : Q = P := by ext; exacts [hxe.symm, hy.symm]
      subst hPQ
      obtain rfl := hX
      obtain rfl : Y1 = Y2 := by rw [eY1, eY2]
      have hY1 : Y1 ≠ 0 := by rw [eY1]; positivity
      have hYn : Y1 ≠ (WE a d c).negY X1 Y1 := by
        simp only [Affine.negY]
        intro h
        have : 2 * Y1 = 0 := by linear_combination h
        exact (mul_ne_zero two hY1) this
      rw [Affine.Point.add_self_of_Y_ne hYn]
      have hsl : (WE a d c).slope X1 X1 Y1 Y1 =
          (3 * X1 ^ 2 + 2 * (2 * (a + d) * c ^ 2) * X1 + ((a - d) * c ^ 2) ^ 2) / (Y1 + Y1) := by
        rw [Affine.slope_of_Y_ne rfl hYn]
        simp only [Affine.negY]
        congr 1 <;> ring
      have hX3 : (WE a d c).addX X1 X1 ((WE a d c).slope X1 X1 Y1 Y1) =
          ((WE a d c).slope X1 X1 Y1 Y1) ^ 2 - 2 * (a + d) * c ^ 2 - X1 - X1 := by
        simp [Affine.addX]
      obtain ⟨hl, tX⟩ := tangentX two hc hk hd hx1 e1 e1' Q.h eX1 eY1 hsl hX3
      have hm : 1 - d * Q.x ^ 2 * Q.y ^ 2 ≠ 0 := by
        rw [show d * Q.x ^ 2 * Q.y ^ 2 = d * Q.x * Q.x * Q.y * Q.y by ring]; exact cs
      have hmx : 1 + d * Q.x ^ 2 * Q.y ^ 2 ≠ 0 := by
        rw [show d * Q.x ^ 2 * Q.y ^ 2 = d * Q.x * Q.x * Q.y * Q.y by ring]; exact ca
      have hY3 : (WE a d c).addY X1 X1 Y1 ((WE a d c).slope X1 X1 Y1 Y1) =
          (WE a d c).slope X1 X1 Y1 Y1 * (X1 - (WE a d c).addX X1 X1 ((WE a d c).slope X1 X1 Y1 Y1)) - Y1 := by
        simp only [Affine.addY, Affine.negAddY, Affine.negY]; ring
      have tY := tangentY two hd hx1 e1 e1' Q.h eX1 eY1 hl (fin _ _ _ hm tX) tX hY3
      apply im_mk hc
      · rw [add_y, show Q.y * Q.y - a * Q.x * Q.x = Q.y ^ 2 - a * Q.x ^ 2 by ring,
          show d * Q.x * Q.x * Q.y * Q.y = d * Q.x ^ 2 * Q.y ^ 2 by ring]
        exact fin2 _ _ _ hm tX
      · rw [add_x, show Q.x * Q.y + Q.y * Q.x = 2 * Q.x * Q.y by ring,
          show d * Q.x * Q.x * Q.y * Q.y = d * Q.x ^ 2 * Q.y ^ 2 by ring, mul_div_assoc', tY]
        field_simp
    · have hxe := eq_neg_of_add_eq_zero_left hxe
      have hYY : Y1 = (WE a d c).negY X2 Y2 := by
        simp only [Affine.negY]
        rw [eY1, eY2, hX, hxe]; field_simp; ring
      rw [Affine.Point.add_of_Y_eq hX hYY, im_zero]
      have h2 := Q.h
      ext
      · rw [add_x, hxe, hy, zero_x, div_eq_zero_iff]; left; ring
      · rw [hxe, hy] at cs
        rw [add_y, hxe, hy, zero_y, div_eq_one_iff_eq cs]; linear_combination h2
  · have hXX : X1 ≠ X2 := by
      rw [eX1, eX2]
      intro h
      rw [div_eq_div_iff e1 e2] at h
      have : 2 * c ^ 2 * (a - d) * (P.y - Q.y) = 0 := by linear_combination h
      have hy' := sub_ne_zero.2 hy
      exact (by positivity : 2 * c ^ 2 * (a - d) * (P.y - Q.y) ≠ 0) this
    rw [Affine.Point.add_of_X_ne hXX]
    have hsl : (WE a d c).slope X1 X2 Y1 Y2 = (Y1 - Y2) / (X1 - X2) := Affine.slope_of_X_ne hXX
    have hX3 : (WE a d c).addX X1 X2 ((WE a d c).slope X1 X2 Y1 Y2) =
        ((WE a d c).slope X1 X2 Y1 Y2) ^ 2 - 2 * (a + d) * c ^ 2 - X1 - X2 := by
      simp [Affine.addX]
    obtain ⟨hl, tX⟩ := chordX two hc hk hd hx1 hx2 e1 e2 (sub_ne_zero.2 hy) P.h Q.h eX1 eX2 eY1 eY2 hsl hX3
    have hY3 : (WE a d c).addY X1 X2 Y1 ((WE a d c).slope X1 X2 Y1 Y2) =
        (WE a d c).slope X1 X2 Y1 Y2 * (X1 - (WE a d c).addX X1 X2 ((WE a d c).slope X1 X2 Y1 Y2)) - Y1 := by
      simp only [Affine.addY, Affine.negAddY, Affine.negY]; ring
    have tY := chordY hd hx1 hx2 e1 (sub_ne_zero.2 hy) P.h Q.h eX1 eY1 hl (fin _ _ _ cs tX) tX hY3
    apply im_mk hc
    · rw [add_y]; exact fin2 _ _ _ cs tX
    · rw [add_x, mul_div_assoc', tY, mul_div_assoc, div_self ca, mul_one]

omit [DecidableEq F] in
/-- Every Edwards point has an image. -/
theorem im_exists (hc : c ≠ 0) (P : EPt a d) : ∃ A : (WE a d c).Point, Im P A := by
  by_cases hx : P.x = 0
  · by_cases hy : P.y = 1
    · exact ⟨.zero, hx, hy⟩
    · have hy' := y_of_x hx hy
      refine ⟨.some 0 0 ((we_nonsingular hc).2 ((we_equation 0 0).2 (by ring))), hy, ?_, ?_⟩
      · rw [hy']; ring
      · ring
  · have hE := P.h
    have e1 : 1 - P.y ≠ 0 := fun h => hx (P.x_eq_zero_of (by rw [← sub_eq_zero.1 h]; ring))
    have hY : ∀ X : F, X = c ^ 2 * (a - d) * (1 + P.y) / (1 - P.y) →
        (2 * c * X / P.x) ^ 2 = X ^ 3 + 2 * (a + d) * c ^ 2 * X ^ 2 + ((a - d) * c ^ 2) ^ 2 * X := by
      rintro _ rfl
      field_simp
      linear_combination (-4 * (a - d) ^ 2 * (1 + P.y)) * hE
    refine ⟨.some _ _ ((we_nonsingular hc).2 ((we_equation _ _).2 (hY _ rfl))), ?_, ?_, ?_⟩
    · exact fun h => e1 (by rw [h]; ring)
    · field_simp
    · field_simp

omit [DecidableEq F] in
/-- The image determines the point. -/
theorem im_inj (hc : c ≠ 0) {P Q : EPt a d} {A : (WE a d c).Point} (hP : Im P A) (hQ : Im Q A) : P = Q := by
  rcases A with _ | ⟨X, Y, hn⟩
  · rw [show P = 0 from (im_zero (c := c) P).1 hP, show Q = 0 from (im_zero (c := c) Q).1 hQ]
  obtain ⟨p0, p1, p2⟩ := id hP
  obtain ⟨q0, q1, q2⟩ := id hQ
  have hk := a_ne_d (a := a) (d := d)
  have two := he.two
  have hX : X + c ^ 2 * (a - d) ≠ 0 := by
    intro h
    have : 2 * c ^ 2 * (a - d) = 0 := by linear_combination (1 - P.y) * h - p1
    exact (by positivity : 2 * c ^ 2 * (a - d) ≠ 0) this
  have hy : P.y = Q.y := by
    apply mul_left_cancel₀ hX
    linear_combination q1 - p1
  by_cases hx : P.x = 0
  · obtain ⟨h1, _, _⟩ := im_two hx hn hP
    have : Q.x = 0 := Q.x_eq_zero_of (by rw [← hy, h1]; ring)
    ext; exacts [by rw [hx, this], hy]
  · obtain ⟨e1, e1', eX1, eY1⟩ := im_coords hx p1 p2
    have hY : Y ≠ 0 := by rw [eY1, eX1]; positivity
    ext
    · apply mul_left_cancel₀ hY; rw [p2, q2]
    · exact hy

omit [DecidableEq F] in
/-- The point determines the image. -/
theorem im_unique (P : EPt a d) {A B : (WE a d c).Point} (hA : Im P A) (hB : Im P B) : A = B := by
  rcases A with _ | ⟨X1, Y1, hn1⟩
  · rcases B with _ | ⟨X2, Y2, hn2⟩
    · rfl
    · exact absurd hA.2 hB.1
  rcases B with _ | ⟨X2, Y2, hn2⟩
  · exact absurd hB.2 hA.1
  by_cases hx : P.x = 0
  · obtain ⟨_, rfl, rfl⟩ := im_two hx hn1 hA
    obtain ⟨_, rfl, rfl⟩ := im_two hx hn2 hB
    rfl
  · obtain ⟨_, _, rfl, rfl⟩ := im_coords hx hA.2.1 hA.2.2
    obtain ⟨_, _, rfl, rfl⟩ := im_coords hx hB.2.1 hB.2.2
    rfl

omit [DecidableEq F] in
/-- Every point of the Weierstrass curve is an image. -/
theorem im_surj (hc : c ≠ 0) (A : (WE a d c).Point) : ∃ P : EPt a d, Im P A := by
  rcases A with _ | ⟨X, Y, hn⟩
  · exact ⟨0, rfl, rfl⟩
  have hE := (we_equation X Y).1 hn.1
  have hk := a_ne_d (a := a) (d := d)
  have two := he.two
  by_cases hX : X = 0
  · subst hX
    have hY : Y = 0 := by simpa using hE
    subst hY
    refine ⟨⟨0, -1, by ring⟩, ?_, ?_, ?_⟩
    · intro h
      exact two (by linear_combination -h)
    · ring
    · ring
  obtain ⟨α, hα⟩ := he.sq
  have hα0 : α ≠ 0 := by rintro rfl; exact he.ne (by simpa using hα)
  have sqd : ∀ u v : F, v ≠ 0 → u ^ 2 = d * v ^ 2 → False := by
    intro u v hv huv
    exact he.nsq ⟨u / v, by field_simp; linear_combination -huv⟩
  have hY : Y ≠ 0 := by
    rintro rfl
    have h1 : X * ((X + (a + d) * c ^ 2) ^ 2 - 4 * a * d * c ^ 4) = 0 := by linear_combination -hE
    have h2 := (mul_eq_zero.1 h1).resolve_left hX
    refine sqd (X + (a + d) * c ^ 2) (2 * α * c ^ 2) (by positivity) ?_
    rw [hα] at h2 ⊢
    linear_combination h2
  have hXk : X + c ^ 2 * (a - d) ≠ 0 := by
    intro h
    have hX' : X = -(c ^ 2 * (a - d)) := eq_neg_of_add_eq_zero_left h
    refine sqd Y (2 * c ^ 3 * (a - d)) (by positivity) ?_
    rw [hE, hX']; ring
  refine ⟨⟨2 * c * X / Y, (X - c ^ 2 * (a - d)) / (X + c ^ 2 * (a - d)), ?_⟩, ?_, ?_, ?_⟩
  · field_simp
    linear_combination (-4 * c ^ 2 * (a - d)) * X * hE
  · show (X - c ^ 2 * (a - d)) / (X + c ^ 2 * (a - d)) ≠ 1
    rw [Ne, div_eq_one_iff_eq hXk]
    intro h
    have : 2 * c ^ 2 * (a - d) = 0 := by linear_combination -h
    exact (by positivity : 2 * c ^ 2 * (a - d) ≠ 0) this
  · show X * (1 - (X - c ^ 2 * (a - d)) / (X + c ^ 2 * (a - d))) =
      c ^ 2 * (a - d) * (1 + (X - c ^ 2 * (a - d)) / (X + c ^ 2 * (a - d)))
    field_simp; ring
  · show Y * (2 * c * X / Y) = 2 * c * X
    field_simp

omit [DecidableEq F] he in
theorem im_neg (P : EPt a d) (A : (WE a d c).Point) (hA : Im P A) : Im (-P) (-A) := by
  rcases A with _ | ⟨X, Y, hn⟩
  · exact ⟨by rw [neg_x, hA.1, neg_zero], hA.2⟩
  · obtain ⟨h0, h1, h2⟩ := hA
    rw [Affine.Point.neg_some]
    refine ⟨h0, h1, ?_⟩
    rw [neg_x]
    simp only [Affine.negY]
    linear_combination h2

end image

section group
variable {a d : F} [he : EdCurve a d]

/-- The complete twisted Edwards curve is a commutative group. -/
instance : AddCommGroup (EPt a d) := by
  classical
  exact {
    add_assoc := fun P Q R => by
      obtain ⟨A, hA⟩ := im_exists one_ne_zero P
      obtain ⟨B, hB⟩ := im_exists one_ne_zero Q
      obtain ⟨C, hC⟩ := im_exists one_ne_zero R
      refine im_inj one_ne_zero (im_add one_ne_zero _ _ _ _ (im_add one_ne_zero _ _ _ _ hA hB) hC) ?_
      rw [add_assoc]
      exact im_add one_ne_zero _ _ _ _ hA (im_add one_ne_zero _ _ _ _ hB hC)
    zero_add := zero_add'
    add_zero := fun P => by rw [add_comm', zero_add']
    add_comm := add_comm'
    neg_add_cancel := fun P => by
      obtain ⟨A, hA⟩ := im_exists one_ne_zero P
      have := im_add one_ne_zero _ _ _ _ (im_neg P A hA) hA
      rwa [neg_add_cancel, im_zero] at this
    nsmul := nsmulRec
    zsmul := zsmulRec }

variable [DecidableEq F] {c : F}

/-- The image map. -/
noncomputable def phi (hc : c ≠ 0) (P : EPt a d) : (WE a d c).Point := (im_exists hc P).choose

omit [DecidableEq F] in
theorem phi_spec (hc : c ≠ 0) (P : EPt a d) : Im P (phi hc P) := (im_exists hc P).choose_spec

/-- The image map is an isomorphism of groups. -/
noncomputable def phiEquiv (hc : c ≠ 0) : EPt a d ≃+ (WE a d c).Point :=
  { Equiv.ofBijective (phi hc) ⟨fun P Q h => im_inj hc (h ▸ phi_spec hc P) (phi_spec hc Q), fun A => by
      obtain ⟨P, hP⟩ := im_surj hc A
      exact ⟨P, im_unique P (phi_spec hc P) hP⟩⟩ with
    map_add' := fun P Q => im_unique _ (phi_spec hc _) (im_add hc _ _ _ _ (phi_spec hc P) (phi_spec hc Q)) }

theorem phiEquiv_spec (hc : c ≠ 0) (P : EPt a d) : Im P (phiEquiv hc P) := phi_spec hc P

end group
end Redox.Edw
