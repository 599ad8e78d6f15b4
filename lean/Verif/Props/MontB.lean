import Verif.Props.MontPoints

/-! # C32 on Montgomery curves with an arbitrary coefficient `b`: doubling -/

set_option linter.unusedSectionVars false

namespace Redox.Props.Mo

open Spec Montgomery MLink Mont

section
variable {F : Type*} [Field F]

/-- The coordinates the code computes for the double of `(x z : y z : z)`. -/
theorem double_coords (a s x y z : F) :
    X3 a s (x * z) (y * z) z (x * z) (y * z) z = z ^ 4 * (2 * y * (a * x ^ 3 + 3 * x ^ 2 - 1 - x * y ^ 2)) ∧
    Y3 a s (x * z) (y * z) z (x * z) (y * z) z =
      z ^ 4 * ((2 * x + a * x ^ 2) ^ 2 - y ^ 4 - (3 * x ^ 2 + 2 * a * x + 1) * (x ^ 2 - 1)) ∧
    Z3 a s (x * z) (y * z) z (x * z) (y * z) z = z ^ 4 * (-2 * y * (3 * (x ^ 3 + a * x ^ 2 + x) + y ^ 2)) := by
  simp only [X3, Y3, Z3, rr, tt, vv, ss, uu, ww]
  refine ⟨by ring, by ring, by ring⟩

theorem double_right {a b x y l x' y' : F} (h2 : (2 : F) ≠ 0) (hb : b ≠ 0) (hy : y ≠ 0) (hon : b * y ^ 2 = x ^ 3 + a * x ^ 2 + x)
    (h3 : (3 : F) = 0 → 3 * x ^ 4 + 4 * a * x ^ 3 + 6 * x ^ 2 - 1 ≠ 0)
    (hl : l = (3 * x ^ 2 + 2 * a * x + 1) / (2 * b * y)) (hx' : x' = b * l ^ 2 - a - 2 * x) (hy' : y' = l * (x - x') - y) :
    (-2 * y * (3 * (x ^ 3 + a * x ^ 2 + x) + y ^ 2) ≠ 0 ∧
      2 * y * (a * x ^ 3 + 3 * x ^ 2 - 1 - x * y ^ 2) = x' * (-2 * y * (3 * (x ^ 3 + a * x ^ 2 + x) + y ^ 2)) ∧
      (2 * x + a * x ^ 2) ^ 2 - y ^ 4 - (3 * x ^ 2 + 2 * a * x + 1) * (x ^ 2 - 1) =
        y' * (-2 * y * (3 * (x ^ 3 + a * x ^ 2 + x) + y ^ 2))) ↔ b = 1 := by
  rw [← hon]
  have hl2 : l * (2 * b * y) = 3 * x ^ 2 + 2 * a * x + 1 := by
    rw [hl, div_mul_cancel₀]; exact mul_ne_zero (mul_ne_zero h2 hb) hy
  have hxx : 4 * b * y ^ 2 * x' = (x ^ 2 - 1) ^ 2 := by
    rw [hx']
    linear_combination (l * (2 * b * y) + 3 * x ^ 2 + 2 * a * x + 1) * hl2 - 4 * (a + 2 * x) * hon
  have hyy : y ^ 2 ≠ 0 := pow_ne_zero 2 hy
  have h4 : (4 : F) ≠ 0 := by
    have := mul_ne_zero h2 h2
    intro h; apply this; linear_combination h
  constructor
  · rintro ⟨hz, hX, hY⟩
    by_contra hb1
    have hb1' : b - 1 ≠ 0 := sub_ne_zero.2 hb1
    have hpsi : 3 * x ^ 4 + 4 * a * x ^ 3 + 6 * x ^ 2 - 1 = 0 := by
      apply mul_left_cancel₀ (mul_ne_zero (mul_ne_zero h2 hy) hb1')
      linear_combination 4 * b * hX - 2 * y * (3 * b + 1) * hxx + 8 * x * y * hon
    have hxe : x' = x := by
      apply mul_left_cancel₀ (mul_ne_zero (mul_ne_zero h4 hb) hyy)
      linear_combination hxx - 4 * x * hon - hpsi
    have hye : y' = -y := by rw [hy', hxe]; ring
    have h9 : 3 * ((3 * b + 1) * (b - 1)) = 0 := by
      apply mul_left_cancel₀ (pow_ne_zero 2 hyy)
      rw [hye] at hY
      linear_combination hY + (3 * x ^ 2 + 2 * a * x + 1) * hpsi + 9 * (b * y ^ 2 + (x ^ 3 + a * x ^ 2 + x)) * hon
    have hb3 : 3 * b + 1 ≠ 0 := fun h => hz (by linear_combination -2 * y ^ 3 * h)
    rcases mul_eq_zero.1 h9 with h | h
    · exact h3 h hpsi
    · exact mul_ne_zero hb3 hb1' h
  · rintro rfl
    refine ⟨fun h => ?_, ?_, ?_⟩
    · have : (2 : F) * 4 * y * y ^ 2 ≠ 0 := mul_ne_zero (mul_ne_zero (mul_ne_zero h2 h4) hy) hyy
      exact this (by linear_combination -h)
    · linear_combination 2 * y * hxx - 2 * x * y * hon
    · rw [hy']
      linear_combination 4 * y ^ 2 * (x - x') * hl2 - (3 * x ^ 2 + 2 * a * x + 1) * hxx - (9 * (y ^ 2 + (x ^ 3 + a * x ^ 2 + x)) - 4 * x * (3 * x ^ 2 + 2 * a * x + 1)) * hon

end

theorem no_three_torsion_three : ∀ a x : ZMod 3, a ^ 2 - 4 ≠ 0 → 3 * x ^ 4 + 4 * a * x ^ 3 + 6 * x ^ 2 - 1 ≠ 0 := by decide

section
variable (p : ℕ) [Fact p.Prime] (e : Curve)

/-- C32, doubling on a nonsingular Montgomery curve with any coefficient `b`, for every point with `y ≠ 0` and every representative: `P + P`
returns the double given by the tangent rule exactly if `b = 1`. On all other curves it is wrong for every such point: it panics or returns
another point. -/
theorem _root_.Redox.Props.C32_double_iff (he : MCurve p e) (P : Point) (hPe : P.e = e) (hcx : Canon p P.c.x) (hcy : Canon p P.c.y)
    (hcz : Canon p P.c.z) (x y l x' y' : ZMod p) (hz : val p P.c.z ≠ 0) (hPx : val p P.c.x = x * val p P.c.z)
    (hPy : val p P.c.y = y * val p P.c.z) (hy : y ≠ 0)
    (hon : val p e.b * y ^ 2 = x ^ 3 + val p e.a * x ^ 2 + x)
    (hl : l = (3 * x ^ 2 + 2 * val p e.a * x + 1) / (2 * val p e.b * y))
    (hx' : x' = val p e.b * l ^ 2 - val p e.a - 2 * x) (hy' : y' = l * (x - x') - y) :
    (∃ S, P.add P = R.ok S ∧ val p S.c.z ≠ 0 ∧ val p S.c.x = x' * val p S.c.z ∧ val p S.c.y = y' * val p S.c.z) ↔ val p e.b = 1 := by
  obtain ⟨e', ⟨X, Y, Z⟩⟩ := P
  simp only at hPe hcx hcy hcz hz hPx hPy
  subst hPe
  obtain ⟨z, rfl⟩ := canon_iff.1 hcz
  obtain ⟨X, rfl⟩ := canon_iff.1 hcx
  obtain ⟨Y, rfl⟩ := canon_iff.1 hcy
  simp only [val_el] at hz hPx hPy
  subst hPx hPy
  have h2 := two_ne_zero' he.odd (p := p)
  have h3 : (3 : ZMod p) = 0 → 3 * x ^ 4 + 4 * val p e'.a * x ^ 3 + 6 * x ^ 2 - 1 ≠ 0 := by
    intro h
    have hp3 : p = 3 := by
      have hd : p ∣ 3 := (ZMod.natCast_eq_zero_iff 3 p).1 (by exact_mod_cast h)
      exact (Nat.prime_dvd_prime_iff_eq Fact.out Nat.prime_three).1 hd
    have ha := ea_ne he
    generalize val p e'.a = a at ha ⊢
    clear hon hl hx' hy' hcx hcy hcz
    subst hp3
    exact no_three_torsion_three a x ha
  have key := double_right h2 (eb_ne he) hy hon h3 hl hx' hy'
  obtain ⟨cX, cY, cZ⟩ := double_coords (val p e'.a) (val p e'.s) x y z
  have hz4 : z ^ 4 ≠ 0 := pow_ne_zero 4 hz
  have hadd : ∀ S, Point.add (pt e' (x * z) (y * z) z) (pt e' (x * z) (y * z) z) = R.ok S → 
      S = pt e' (X3 (val p e'.a) (val p e'.s) (x * z) (y * z) z (x * z) (y * z) z) (Y3 (val p e'.a) (val p e'.s) (x * z) (y * z) z (x * z) (y * z) z)
        (Z3 (val p e'.a) (val p e'.s) (x * z) (y * z) z (x * z) (y * z) z) := by
    intro S hS
    rw [Point.add, doIfEq, if_pos (by simp [pt]), Point.coreAdd, coreAddCoords_pt (ea he) (es he), R.ok_bind] at hS
    change e'.newProyPoint _ = _ at hS
    rw [newProyPoint_pt (ea he) (eb he)] at hS
    split at hS
    · cases hS; rfl
    · cases hS
  constructor
  · rintro ⟨S, hS, h1, h2, h3⟩
    have := hadd S hS
    subst this
    simp only [pt, val_el, cX, cY, cZ] at h1 h2 h3
    refine key.1 ⟨(mul_ne_zero_iff.1 h1).2, ?_, ?_⟩
    · apply mul_left_cancel₀ hz4; linear_combination h2
    · apply mul_left_cancel₀ hz4; linear_combination h3
  · intro hb
    have hns : (mGroup p e').Nonsingular x y := by
      refine (nonsingular_iff _ x y).2 ⟨by rw [hb, one_mul] at hon; exact hon, ?_⟩
      exact Or.inr (mul_ne_zero h2 hy)
    have hd : MDenotes p e' (pt e' (x * z) (y * z) z) (.some x y hns) := denotes_iff.2 ⟨_, _, _, rfl, hz, rfl, rfl⟩
    obtain ⟨S, hS, -⟩ := (C32_add_exact_partial p e' he hb _ _ _ _ hd hd).1 (by rw [sub_self]; rintro x h ⟨⟩)
    refine ⟨S, hS, ?_⟩
    have := hadd S hS
    subst this
    obtain ⟨k1, k2, k3⟩ := key.2 hb
    simp only [pt, val_el, cX, cY, cZ]
    exact ⟨mul_ne_zero hz4 k1, by rw [k2]; ring, by rw [k3]; ring⟩

/-- The hypotheses are met by every affine point with `y ≠ 0`; the right side holds on `toyM` and fails on `toyMb`, where `(4, 2)` is a point:
there the double is `(1, 4)` and the code panics. -/
example : MCurve 7 toyMb ∧ val 7 toyMb.b ≠ 1 ∧ val 7 toyMb.b * 2 ^ 2 = 4 ^ 3 + val 7 toyMb.a * 4 ^ 2 + 4 ∧ (2 : ZMod 7) ≠ 0 ∧
    MCurve 7 toyM ∧ val 7 toyM.b = 1 ∧ val 7 toyM.b * 3 ^ 2 = 3 ^ 3 + val 7 toyM.a * 3 ^ 2 + 3 := by
  refine ⟨toyMb_curve, by decide, by decide, by decide, toyM_curve, by decide, by decide⟩

end
end Redox.Props.Mo
