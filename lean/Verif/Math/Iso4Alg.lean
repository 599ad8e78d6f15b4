import Verif.Math.Iso4Cert
import Mathlib.Tactic.FieldSimp
import Mathlib.Tactic.NormNum
import Mathlib.Tactic.Ring

/-!
# The 4-isogeny of RFC 7748 and the chord
-/

namespace Redox.Iso4Cert

variable {F : Type*} [Field F] {a d x1 y1 x2 y2 x3 y3 : F}

theorem t_add (h1 : x1 ^ 2 + y1 ^ 2 = 1 + d * x1 ^ 2 * y1 ^ 2) (h2 : x2 ^ 2 + y2 ^ 2 = 1 + d * x2 ^ 2 * y2 ^ 2)
    (n1 : 1 - d * x1 ^ 2 ≠ 0) (n2 : 1 - d * x2 ^ 2 ≠ 0) (dp : 1 + d * x1 * x2 * y1 * y2 ≠ 0) (dm : 1 - d * x1 * x2 * y1 * y2 ≠ 0)
    (ex : x3 = (x1 * y2 + y1 * x2) / (1 + d * x1 * x2 * y1 * y2)) (ey : y3 = (y1 * y2 - x1 * x2) / (1 - d * x1 * x2 * y1 * y2))
    (hx1 : x1 ≠ 0) (hx2 : x2 ≠ 0) (hx3 : x3 ≠ 0) :
    y3 / x3 * ((y1 / x1) ^ 2 - (y2 / x2) ^ 2) =
      y2 / x2 * ((2 - x1 ^ 2 - y1 ^ 2) / x1 ^ 2) - y1 / x1 * ((2 - x2 ^ 2 - y2 ^ 2) / x2 ^ 2) := by
  have k := absc h1 h2 n1 n2
  obtain ⟨N, eN⟩ : ∃ N, N = x1 * y2 + y1 * x2 := ⟨_, rfl⟩
  rw [← eN] at ex
  have hN : N ≠ 0 := fun h0 => hx3 (by rw [ex, h0, zero_div])
  rw [ex, ey]
  generalize 1 + d * x1 * x2 * y1 * y2 = P at *
  generalize 1 - d * x1 * x2 * y1 * y2 = M at *
  field_simp
  rw [eN]
  linear_combination (x1 * y2 + y1 * x2) * k

theorem delta_add (h1 : x1 ^ 2 + y1 ^ 2 = 1 + d * x1 ^ 2 * y1 ^ 2) (h2 : x2 ^ 2 + y2 ^ 2 = 1 + d * x2 ^ 2 * y2 ^ 2)
    (n1 : 1 - d * x1 ^ 2 ≠ 0) (n2 : 1 - d * x2 ^ 2 ≠ 0) (dp : 1 + d * x1 * x2 * y1 * y2 ≠ 0) (dm : 1 - d * x1 * x2 * y1 * y2 ≠ 0)
    (ex : x3 = (x1 * y2 + y1 * x2) / (1 + d * x1 * x2 * y1 * y2)) (ey : y3 = (y1 * y2 - x1 * x2) / (1 - d * x1 * x2 * y1 * y2))
    (hx1 : x1 ≠ 0) (hx2 : x2 ≠ 0) (hx3 : x3 ≠ 0) :
    (2 - x3 ^ 2 - y3 ^ 2) / x3 ^ 2 * ((y1 / x1) ^ 2 - (y2 / x2) ^ 2) =
      y1 / x1 * (y2 / x2) * ((y1 / x1) ^ 2 - (y2 / x2) ^ 2) -
        y3 / x3 * (y1 / x1 * ((2 - x1 ^ 2 - y1 ^ 2) / x1 ^ 2) - y2 / x2 * ((2 - x2 ^ 2 - y2 ^ 2) / x2 ^ 2)) := by
  have k := ordi h1 h2 n1 n2
  obtain ⟨N, eN⟩ : ∃ N, N = x1 * y2 + y1 * x2 := ⟨_, rfl⟩
  rw [← eN] at ex
  have hN : N ≠ 0 := fun h0 => hx3 (by rw [ex, h0, zero_div])
  rw [ex, ey]
  generalize 1 + d * x1 * x2 * y1 * y2 = P at *
  generalize 1 - d * x1 * x2 * y1 * y2 = M at *
  field_simp
  rw [eN]
  linear_combination (-(x1 * y2 + y1 * x2)) * k

theorem delta_sq (h1 : x1 ^ 2 + y1 ^ 2 = 1 + d * x1 ^ 2 * y1 ^ 2) (ha : a = 2 - 4 * d) (hx1 : x1 ≠ 0) :
    ((2 - x1 ^ 2 - y1 ^ 2) / x1 ^ 2) ^ 2 = (y1 / x1) ^ 4 + a * (y1 / x1) ^ 2 + 1 := by
  rw [ha]
  field_simp
  linear_combination -4 * h1

variable {t1 t2 t3 e1 e2 e3 : F}

theorem chord_x (q1 : e1 ^ 2 = t1 ^ 4 + a * t1 ^ 2 + 1) (q2 : e2 ^ 2 = t2 ^ 4 + a * t2 ^ 2 + 1) (hd : t1 ^ 2 - t2 ^ 2 ≠ 0)
    (k1 : t3 * (t1 ^ 2 - t2 ^ 2) = t2 * e1 - t1 * e2) :
    t3 ^ 2 = ((t1 * e1 - t2 * e2) / (t1 ^ 2 - t2 ^ 2)) ^ 2 - a - t1 ^ 2 - t2 ^ 2 := by
  have e : t3 = (t2 * e1 - t1 * e2) / (t1 ^ 2 - t2 ^ 2) := by rw [eq_div_iff hd, k1]
  rw [e]
  field_simp
  linear_combination (t2 ^ 2 - t1 ^ 2) * q1 + (t1 ^ 2 - t2 ^ 2) * q2

theorem chord_y (hd : t1 ^ 2 - t2 ^ 2 ≠ 0) (k1 : t3 * (t1 ^ 2 - t2 ^ 2) = t2 * e1 - t1 * e2)
    (k2 : e3 * (t1 ^ 2 - t2 ^ 2) = t1 * t2 * (t1 ^ 2 - t2 ^ 2) - t3 * (t1 * e1 - t2 * e2)) :
    t3 * e3 = -((t1 * e1 - t2 * e2) / (t1 ^ 2 - t2 ^ 2) * (t3 ^ 2 - t1 ^ 2) + t1 * e1) := by
  have e : e3 = t1 * t2 - t3 * (t1 * e1 - t2 * e2) / (t1 ^ 2 - t2 ^ 2) := by field_simp; linear_combination k2
  rw [e]
  field_simp
  linear_combination t1 * t2 * k1

/-! ### Translation by the point `(-1, w)` of order four on `v² = u³ + a u² + u` -/

variable {u v w u' v' : F}

/-- The coordinates of `(u, v) + (-1, w)`. -/
theorem translate (hc : v ^ 2 = u ^ 3 + a * u ^ 2 + u) (hw : w ^ 2 = a - 2) (hu : u ≠ 0) (hu1 : u + 1 ≠ 0)
    (eu : u' = ((v - w) / (u + 1)) ^ 2 - a - u + 1) (ev : v' = -((v - w) / (u + 1) * (u' - u) + v)) :
    u' * (u * (u + 1) ^ 2) = -(v + u * w) ^ 2 ∧ v' * (u + 1) = -w * u' * (u - 1) := by
  have e1 : u' * (u * (u + 1) ^ 2) = -(v + u * w) ^ 2 := by
    rw [eu]
    field_simp
    linear_combination (u + 1) * hc + (u ^ 2 + u) * hw
  have e2 : (v + u * w) * (v - u * w) = u * (u + 1) ^ 2 := by linear_combination hc - u ^ 2 * hw
  have n1 : v + u * w ≠ 0 := by
    intro h0
    rw [h0, zero_mul] at e2
    exact mul_ne_zero hu (pow_ne_zero 2 hu1) e2.symm
  have e3 : u' * (v - u * w) = -(v + u * w) := by
    apply mul_left_cancel₀ n1
    linear_combination e1 + u' * e2
  refine ⟨e1, ?_⟩
  rw [ev]
  field_simp
  linear_combination -e3

/-- The dual isogeny takes the same value at `(u, v) + (-1, w)` as at `(u, v)`. -/
theorem translate_pull (two : (2 : F) ≠ 0) (hc : v ^ 2 = u ^ 3 + a * u ^ 2 + u) (hw : w ^ 2 = a - 2) (hu : u ≠ 0) (hu1 : u + 1 ≠ 0)
    (e1 : u' * (u * (u + 1) ^ 2) = -(v + u * w) ^ 2) (e2 : v' * (u + 1) = -w * u' * (u - 1)) (hw0 : w ≠ 0)
    (hd0 : u ^ 4 - 2 * u ^ 2 + 4 * v ^ 2 + 1 ≠ 0) (hd1 : u ^ 5 - 2 * u ^ 2 * v ^ 2 - 2 * u ^ 3 - 2 * v ^ 2 + u ≠ 0)
    (hd0' : u' ^ 4 - 2 * u' ^ 2 + 4 * v' ^ 2 + 1 ≠ 0)
    (hd1' : u' ^ 5 - 2 * u' ^ 2 * v' ^ 2 - 2 * u' ^ 3 - 2 * v' ^ 2 + u' ≠ 0) :
    4 * v' * (u' ^ 2 - 1) / (u' ^ 4 - 2 * u' ^ 2 + 4 * v' ^ 2 + 1) = 4 * v * (u ^ 2 - 1) / (u ^ 4 - 2 * u ^ 2 + 4 * v ^ 2 + 1) ∧
    -(u' ^ 5 - 2 * u' ^ 3 - 4 * u' * v' ^ 2 + u') / (u' ^ 5 - 2 * u' ^ 2 * v' ^ 2 - 2 * u' ^ 3 - 2 * v' ^ 2 + u') =
      -(u ^ 5 - 2 * u ^ 3 - 4 * u * v ^ 2 + u) / (u ^ 5 - 2 * u ^ 2 * v ^ 2 - 2 * u ^ 3 - 2 * v ^ 2 + u) := by
  have e3 : (v + u * w) * (v - u * w) = u * (u + 1) ^ 2 := by linear_combination hc - u ^ 2 * hw
  have n1 : v + u * w ≠ 0 := by
    intro h0
    rw [h0, zero_mul] at e3
    exact mul_ne_zero hu (pow_ne_zero 2 hu1) e3.symm
  have hu' : u' ≠ 0 := by
    rintro rfl
    rw [zero_mul, zero_eq_neg] at e1
    exact n1 (pow_eq_zero_iff (two_ne_zero)|>.1 e1)
  -- `H = u - 1/u`, `K = u + 1/u`, `g = v/u` at the translate
  obtain ⟨H, hH⟩ : ∃ H, H = u' - 1 / u' := ⟨_, rfl⟩
  obtain ⟨K, hK⟩ : ∃ H, H = u' + 1 / u' := ⟨_, rfl⟩
  obtain ⟨g, hg⟩ : ∃ H, H = v' / u' := ⟨_, rfl⟩
  have e4 : u' * (v - u * w) ^ 2 = -(u * (u + 1) ^ 2) := by
    apply mul_left_cancel₀ (pow_ne_zero 2 n1)
    linear_combination u' * ((v + u * w) * (v - u * w) + u * (u + 1) ^ 2) * e3 + (u * (u + 1) ^ 2) * e1
  have iu : 1 / u' = -(v - u * w) ^ 2 / (u * (u + 1) ^ 2) := by
    rw [div_eq_div_iff hu' (mul_ne_zero hu (pow_ne_zero 2 hu1))]
    linear_combination e4
  have fu : u' = -(v + u * w) ^ 2 / (u * (u + 1) ^ 2) := by
    field_simp
    linear_combination e1
  have EH : H = -4 * v * w / (u + 1) ^ 2 := by
    rw [hH, iu]; rw [fu]; field_simp; ring
  have EK : K = -2 * (v ^ 2 + u ^ 2 * w ^ 2) / (u * (u + 1) ^ 2) := by
    rw [hK, iu]; rw [fu]; field_simp; ring
  have Eg : g = -w * (u - 1) / (u + 1) := by
    rw [hg]; field_simp; linear_combination e2
  have fx : 4 * v' * (u' ^ 2 - 1) / (u' ^ 4 - 2 * u' ^ 2 + 4 * v' ^ 2 + 1) = 4 * g * H / (H ^ 2 + 4 * g ^ 2) := by
    have : H ^ 2 + 4 * g ^ 2 = (u' ^ 4 - 2 * u' ^ 2 + 4 * v' ^ 2 + 1) / u' ^ 2 := by rw [hH, hg]; field_simp; ring
    rw [this, hH, hg]
    field_simp
  have fy : -(u' ^ 5 - 2 * u' ^ 3 - 4 * u' * v' ^ 2 + u') / (u' ^ 5 - 2 * u' ^ 2 * v' ^ 2 - 2 * u' ^ 3 - 2 * v' ^ 2 + u') =
      -(H ^ 2 - 4 * g ^ 2) / (H ^ 2 - 2 * g ^ 2 * K) := by
    have : H ^ 2 - 2 * g ^ 2 * K = (u' ^ 5 - 2 * u' ^ 2 * v' ^ 2 - 2 * u' ^ 3 - 2 * v' ^ 2 + u') / u' ^ 3 := by
      rw [hH, hg, hK]; field_simp; ring
    rw [this, hH, hg]
    field_simp
    ring
  have d0 : H ^ 2 + 4 * g ^ 2 = 4 * w ^ 2 * (u ^ 4 - 2 * u ^ 2 + 4 * v ^ 2 + 1) / (u + 1) ^ 4 := by
    rw [EH, Eg]; field_simp; ring
  have d1 : H ^ 2 - 2 * g ^ 2 * K = -4 * w ^ 2 * (u ^ 5 - 2 * u ^ 2 * v ^ 2 - 2 * u ^ 3 - 2 * v ^ 2 + u) / (u * (u + 1) ^ 4) := by
    rw [EH, Eg, EK]; field_simp
    linear_combination (4 * (u - 1) ^ 2) * (u ^ 2 * hw - hc)
  constructor
  · rw [fx, d0, EH, Eg]
    generalize u ^ 4 - 2 * u ^ 2 + 4 * v ^ 2 + 1 = D at *
    field_simp
    ring
  · have four : (4 : F) ≠ 0 := by rw [show (4 : F) = 2 * 2 by norm_num]; exact mul_ne_zero two two
    rw [fy, d1, EH, Eg]
    generalize u ^ 5 - 2 * u ^ 2 * v ^ 2 - 2 * u ^ 3 - 2 * v ^ 2 + u = D at *
    field_simp
    ring

end Redox.Iso4Cert
