import Mathlib.Tactic.LinearCombination
import Mathlib.Tactic.FieldSimp
import Mathlib.Tactic.Ring
import Verif.Spec.Maps

/-!
# Elligator 2 over `ZMod p`: fibres and image

`IsEll2 a z u x y`: the affine point `(x, y)` is the one Elligator 2 assigns to `u` on `y² = x³ + a x² + x`.
-/

namespace Redox.Ell2Math

open Spec

variable {p : ℕ} [Fact p.Prime] {a z u v x y : ZMod p}

theorem mrhs_one (a x : ZMod p) : mrhs a 1 x = x ^ 3 + a * x ^ 2 + x := by unfold mrhs; simp

/-- The conditions on abscissa and ordinate. -/
structure IsEll2 (a z u x y : ZMod p) : Prop where
  hx : x = ell2X a 1 z u
  hy : y ^ 2 = mrhs a 1 x
  par : y = 0 ∨ (y.val % 2 = 1 ↔ IsSquare (mrhs a 1 (ell2X1 a 1 z u)))

/-- The denominator. -/
def den (z u : ZMod p) : ZMod p := if 1 + z * u ^ 2 = 0 then 1 else 1 + z * u ^ 2

theorem den_ne : den z u ≠ 0 := by unfold den; split_ifs with h; exacts [one_ne_zero, h]

theorem x1_eq : ell2X1 a 1 z u = -a / den z u := by
  unfold ell2X1 den; split_ifs <;> simp

theorem x1_ne (ha : a ≠ 0) : ell2X1 a 1 z u ≠ 0 := by
  rw [x1_eq]; exact div_ne_zero (neg_ne_zero.2 ha) den_ne

theorem zsq_ne (hz : ¬ IsSquare z) : z ≠ 0 := fun h => hz (h ▸ IsSquare.zero)

/-- The exceptional inputs, `0` and the roots of `1 + z u²`. -/
def Exc (z u : ZMod p) : Prop := u = 0 ∨ 1 + z * u ^ 2 = 0

theorem den_one_iff (hz : ¬ IsSquare z) : den z u = 1 ↔ Exc z u := by
  unfold den Exc
  split_ifs with h
  · simp [h]
  · have := zsq_ne hz
    simp [h, this]

theorem x1_inj (ha : a ≠ 0) (hz : ¬ IsSquare z) :
    ell2X1 a 1 z u = ell2X1 a 1 z v ↔ (u = v ∨ u = -v) ∨ (Exc z u ∧ Exc z v) := by
  have hz0 := zsq_ne hz
  rw [x1_eq, x1_eq, div_eq_div_iff den_ne den_ne, mul_right_inj' (neg_ne_zero.2 ha)]
  constructor
  · intro h
    by_cases hu : Exc z u
    · right
      refine ⟨hu, (den_one_iff hz).1 ?_⟩
      rw [(den_one_iff hz).2 hu] at h; exact h
    · by_cases hv : Exc z v
      · rw [(den_one_iff hz).2 hv] at h
        exact absurd ((den_one_iff hz).1 h.symm) hu
      · left
        unfold Exc at hu hv
        push Not at hu hv
        unfold den at h
        rw [if_neg hu.2, if_neg hv.2] at h
        have : u ^ 2 = v ^ 2 := mul_left_cancel₀ hz0 (by linear_combination -h)
        exact sq_eq_sq_iff_eq_or_eq_neg.1 this
  · rintro ((rfl | rfl) | ⟨hu, hv⟩)
    · rfl
    · unfold den; rw [neg_sq]
    · rw [(den_one_iff hz).2 hu, (den_one_iff hz).2 hv]

/-- `g(-x₁ - a) = z u² g(x₁)` away from the exceptional inputs, and `0` there. -/
theorem g_x2 : mrhs a 1 (-(ell2X1 a 1 z u) - a) = (den z u - 1) * mrhs a 1 (ell2X1 a 1 z u) := by
  rw [mrhs_one, mrhs_one, x1_eq]
  have := den_ne (z := z) (u := u)
  field_simp
  ring

theorem x_sq (h : IsSquare (mrhs a 1 (ell2X1 a 1 z u))) : ell2X a 1 z u = ell2X1 a 1 z u := by
  unfold ell2X; rw [if_pos h]

theorem x_nsq (h : ¬ IsSquare (mrhs a 1 (ell2X1 a 1 z u))) : ell2X a 1 z u = -(ell2X1 a 1 z u) - a := by
  unfold ell2X; rw [if_neg h, div_one]

/-- In the second case the abscissa or the ordinate is nonzero only together. -/
theorem nsq_zero (hz : ¬ IsSquare z) (h : IsEll2 a z u x y) (hs : ¬ IsSquare (mrhs a 1 (ell2X1 a 1 z u)))
    (hy : y = 0) : Exc z u ∧ x = 0 := by
  have h1 := h.hy
  rw [h.hx, x_nsq hs, g_x2, hy] at h1
  have : den z u - 1 = 0 := by
    rcases mul_eq_zero.1 (by linear_combination -h1 : (den z u - 1) * mrhs a 1 (ell2X1 a 1 z u) = 0) with h | h
    · exact h
    · rw [h] at hs; exact absurd IsSquare.zero hs
  have hd : den z u = 1 := by linear_combination this
  refine ⟨(den_one_iff hz).1 hd, ?_⟩
  rw [h.hx, x_nsq hs, x1_eq, hd]; ring

theorem cross (ha : a ≠ 0) (hz : ¬ IsSquare z) (hu : IsEll2 a z u x y) (hv : IsEll2 a z v x y)
    (h1 : IsSquare (mrhs a 1 (ell2X1 a 1 z u))) (h2 : ¬ IsSquare (mrhs a 1 (ell2X1 a 1 z v))) : False := by
  by_cases hy : y = 0
  · obtain ⟨-, hx⟩ := nsq_zero hz hv h2 hy
    have := hu.hx
    rw [x_sq h1, hx] at this
    exact x1_ne ha this.symm
  · exact h2 ((hv.par.resolve_left hy).1 ((hu.par.resolve_left hy).2 h1))

/-- Two inputs have the same image exactly when they are equal up to sign, or both exceptional. -/
theorem fibre {x' y' : ZMod p} (ha : a ≠ 0) (hz : ¬ IsSquare z) (hu : IsEll2 a z u x y) (hv : IsEll2 a z v x' y')
    (h2 : ∀ y : ZMod p, y ≠ 0 → (-y).val % 2 ≠ y.val % 2) :
    (x = x' ∧ y = y') ↔ (u = v ∨ u = -v) ∨ (Exc z u ∧ Exc z v) := by
  constructor
  · rintro ⟨rfl, rfl⟩
    rw [← x1_inj ha hz]
    by_cases h1 : IsSquare (mrhs a 1 (ell2X1 a 1 z u)) <;> by_cases h2 : IsSquare (mrhs a 1 (ell2X1 a 1 z v))
    · rw [← x_sq h1, ← x_sq h2, ← hu.hx, ← hv.hx]
    · exact (cross ha hz hu hv h1 h2).elim
    · exact (cross ha hz hv hu h2 h1).elim
    · have e1 := hu.hx; have e2 := hv.hx
      rw [x_nsq h1] at e1; rw [x_nsq h2] at e2
      linear_combination e1 - e2
  · intro h
    rw [← x1_inj ha hz] at h
    have hx : x = x' := by rw [hu.hx, hv.hx]; unfold ell2X; rw [h]
    subst hx
    refine ⟨rfl, ?_⟩
    have hsq : (y - y') * (y + y') = 0 := by linear_combination hu.hy - hv.hy
    rcases mul_eq_zero.1 hsq with h' | h'
    · linear_combination h'
    · have hyy : y = -y' := by linear_combination h'
      by_cases hy : y' = 0
      · rw [hyy, hy, neg_zero]
      · have hy0 : y ≠ 0 := by rw [hyy]; exact neg_ne_zero.2 hy
        have p1 := hu.par.resolve_left hy0
        have p2 := hv.par.resolve_left hy
        rw [h, ← p2] at p1
        have := h2 y' hy
        rw [← hyy] at this
        have := Nat.mod_two_eq_zero_or_one y.val
        have := Nat.mod_two_eq_zero_or_one y'.val
        omega

/-- The image: `-z x (x + a)` is a square, at `x = -a` the ordinate is odd, and `x = 0` occurs only if `-a` is not a square. -/
theorem image (ha : a ≠ 0) (hz : ¬ IsSquare z) (hy : y ^ 2 = x ^ 3 + a * x ^ 2 + x) :
    (∃ u, IsEll2 a z u x y) ↔
      IsSquare (-z * x * (x + a)) ∧ (x = -a → y.val % 2 = 1) ∧ (x = 0 → ¬ IsSquare (-a)) := by
  have hz0 := zsq_ne hz
  have hy' : y ^ 2 = mrhs a 1 x := by rw [mrhs_one]; exact hy
  constructor
  · rintro ⟨u, h⟩
    have hd := den_ne (z := z) (u := u)
    have hx1 := x1_eq (a := a) (z := z) (u := u)
    have hdu : den z u - 1 = 0 ∨ den z u - 1 = z * u ^ 2 := by
      unfold den; split_ifs
      · left; ring
      · right; ring
    by_cases hs : IsSquare (mrhs a 1 (ell2X1 a 1 z u))
    · have hx := h.hx
      rw [x_sq hs] at hx
      have hx0 : x ≠ 0 := hx ▸ x1_ne ha
      refine ⟨?_, fun hxa => ?_, fun h => absurd h hx0⟩
      · have hxd : x * den z u = -a := by rw [hx, hx1]; field_simp
        rcases hdu with h0 | h0
        · rw [show -z * x * (x + a) = 0 by
            have : den z u = 1 := by linear_combination h0
            rw [this] at hxd
            linear_combination -z * x * hxd]
          exact IsSquare.zero
        · exact ⟨z * u * x, by linear_combination -z * x * hxd + z * x ^ 2 * h0⟩
      · have hy0 : y ≠ 0 := by
          rintro rfl
          rw [hxa] at hy
          exact ha (by linear_combination hy)
        exact (h.par.resolve_left hy0).2 hs
    · have hx := h.hx
      rw [x_nsq hs] at hx
      have hxd : (x + a) * den z u = a := by rw [hx, hx1]; field_simp; ring
      have hxa : x ≠ -a := by
        intro h; rw [h] at hxd; exact ha (by linear_combination -hxd)
      refine ⟨?_, fun h => absurd h hxa, fun hx0 => ?_⟩
      · rcases hdu with h0 | h0
        · have : den z u = 1 := by linear_combination h0
          rw [this] at hxd
          rw [show -z * x * (x + a) = 0 by linear_combination -z * (x + a) * hxd]
          exact IsSquare.zero
        · exact ⟨z * u * (x + a), by linear_combination z * (x + a) ^ 2 * h0 - z * (x + a) * hxd⟩
      · have hd1 : den z u = 1 := by
          rw [hx0, zero_add] at hxd
          exact mul_left_cancel₀ ha (by linear_combination hxd)
        have : mrhs a 1 (ell2X1 a 1 z u) = -a := by rw [mrhs_one, hx1, hd1]; ring
        rwa [this] at hs
  · rintro ⟨⟨w, hw⟩, hxa, hx0⟩
    by_cases hx : x = 0
    · have hns := hx0 hx
      subst hx
      have hd1 : den z (0 : ZMod p) = 1 := (den_one_iff hz).2 (Or.inl rfl)
      have hg : mrhs a 1 (ell2X1 a 1 z 0) = -a := by rw [mrhs_one, x1_eq, hd1]; ring
      refine ⟨0, ?_, hy', Or.inl ?_⟩
      · rw [x_nsq (by rwa [hg]), x1_eq, hd1]; ring
      · have : y ^ 2 = 0 := by rw [hy]; ring
        exact pow_eq_zero_iff two_ne_zero |>.1 this
    · by_cases hxa' : x = -a
      · have ho := hxa hxa'
        have hd1 : den z (0 : ZMod p) = 1 := (den_one_iff hz).2 (Or.inl rfl)
        have hx1 : ell2X1 a 1 z 0 = x := by rw [x1_eq, hd1, hxa']; ring
        have hs : IsSquare (mrhs a 1 (ell2X1 a 1 z 0)) := ⟨y, by rw [hx1, ← hy']; ring⟩
        exact ⟨0, by rw [x_sq hs, hx1], hy', Or.inr ⟨fun _ => hs, fun _ => ho⟩⟩
      · have hxa0 : x + a ≠ 0 := fun h => hxa' (by linear_combination h)
        by_cases ho : y = 0 ∨ y.val % 2 = 1
        · have hu : z * (w / (z * x)) ^ 2 = -(x + a) / x := by field_simp; linear_combination -hw
          have hd : den z (w / (z * x)) = -a / x := by
            have h1 : 1 + z * (w / (z * x)) ^ 2 = -a / x := by rw [hu]; field_simp; ring
            unfold den
            rw [if_neg (by rw [h1]; exact div_ne_zero (neg_ne_zero.2 ha) hx), h1]
          have hx1 : ell2X1 a 1 z (w / (z * x)) = x := by rw [x1_eq, hd]; field_simp
          have hs : IsSquare (mrhs a 1 (ell2X1 a 1 z (w / (z * x)))) := ⟨y, by rw [hx1, ← hy']; ring⟩
          exact ⟨_, by rw [x_sq hs, hx1], hy', ho.imp id fun h => ⟨fun _ => hs, fun _ => h⟩⟩
        · push Not at ho
          have hu : z * (w / (z * (x + a))) ^ 2 = -x / (x + a) := by field_simp; linear_combination -hw
          have hd : den z (w / (z * (x + a))) = a / (x + a) := by
            have h1 : 1 + z * (w / (z * (x + a))) ^ 2 = a / (x + a) := by rw [hu]; field_simp; ring
            unfold den
            rw [if_neg (by rw [h1]; exact div_ne_zero ha hxa0), h1]
          have hx1 : ell2X1 a 1 z (w / (z * (x + a))) = -(x + a) := by rw [x1_eq, hd]; field_simp
          have hx2 : -(ell2X1 a 1 z (w / (z * (x + a)))) - a = x := by rw [hx1]; ring
          have hs : ¬ IsSquare (mrhs a 1 (ell2X1 a 1 z (w / (z * (x + a))))) := by
            rintro ⟨r, hr⟩
            have hg := g_x2 (a := a) (z := z) (u := w / (z * (x + a)))
            rw [hx2, ← hy', hr, hd] at hg
            have hr0 : r ≠ 0 := by
              rintro rfl
              exact ho.1 (pow_eq_zero_iff two_ne_zero |>.1 (by rw [hg]; ring))
            have hw0 : w ≠ 0 := by
              rintro rfl
              have := mul_ne_zero (mul_ne_zero (neg_ne_zero.2 hz0) hx) hxa0
              exact this (by rw [hw]; ring)
            -- y² = -x/(x+a) r² = z u² r²
            refine hz ⟨y * (z * (x + a)) / (w * r), ?_⟩
            have e : y ^ 2 * (x + a) = -x * r ^ 2 := by
              rw [hg]; field_simp; ring
            field_simp
            linear_combination (-r ^ 2) * hw - z * (x + a) * e
          exact ⟨_, by rw [x_nsq hs, hx2], hy', Or.inr ⟨fun h => absurd h ho.2, fun h => absurd h hs⟩⟩

end Redox.Ell2Math
