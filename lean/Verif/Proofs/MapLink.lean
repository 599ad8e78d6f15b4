import Verif.Model.Maps
import Verif.Spec.Maps
import Verif.Math.MapId
import Verif.Proofs.SqrtLink
import Verif.Proofs.WeierDecode
import Verif.Proofs.MontDecode

/-! # The maps of the model in terms of `ZMod p` -/

set_option linter.unusedSectionVars false

namespace Redox

open Spec

section
variable {p : ℕ} [Fact p.Prime]

/-- `y` with its sign chosen to agree with `u`. -/
def matchSign (u y : ZMod p) : ZMod p := if u.val % 2 = y.val % 2 then y else -y

theorem matchSign_sq (u y : ZMod p) : matchSign u y ^ 2 = y ^ 2 := by
  unfold matchSign; split_ifs
  · rfl
  · ring

theorem sgn0_beq [NeZero p] (u y : ZMod p) : ((el u).sgn0 == (el y).sgn0) = decide (u.val % 2 = y.val % 2) := by
  rw [sgn0_el, sgn0_el]
  rcases Nat.mod_two_eq_zero_or_one u.val with h | h <;> rcases Nat.mod_two_eq_zero_or_one y.val with h' | h' <;>
    simp [h, h']

theorem sgn0_one [NeZero p] (y : ZMod p) : ((el y).sgn0 == 1) = decide (y.val % 2 = 0) := by
  rw [sgn0_el]
  rcases Nat.mod_two_eq_zero_or_one y.val with h' | h' <;> simp [h']

theorem neg_parity [Fact (2 < p)] {y : ZMod p} (hy : y ≠ 0) : (-y).val % 2 = 1 - y.val % 2 := by
  have ho : p % 2 = 1 := p_odd
  have : NeZero y := ⟨hy⟩
  rw [ZMod.val_neg_of_ne_zero]
  have := ZMod.val_lt y
  have := ZMod.val_pos.2 hy
  omega

theorem matchSign_parity [Fact (2 < p)] {u y : ZMod p} (hy : y ≠ 0) : (matchSign u y).val % 2 = u.val % 2 := by
  unfold matchSign
  split_ifs with h
  · exact h.symm
  · rw [neg_parity hy]; omega

end

namespace WLink

open Weierstrass

section
variable {p : ℕ} [Fact p.Prime] [Fact (2 < p)] {e : Curve} {a b : ZMod p}

open Classical in
theorem sswu_new (hf : e.f = ⟨p⟩) (ha : e.a = el a) (hb : e.b = el b) (z : ZMod p) :
    SSWU.new e (el z) = if a ≠ 0 ∧ b ≠ 0 ∧ ¬ IsSquare z ∧ z ≠ -1 ∧ IsSquare (rhs a b (b / (z * a))) then
      R.ok ⟨e, el (-b * a⁻¹), el (-z⁻¹), el z⟩ else R.panic .wrongParams := by
  have hg : b * (z * a)⁻¹ * (b * (z * a)⁻¹ * (b * (z * a)⁻¹) + a) + b = rhs a b (b / (z * a)) := by
    unfold rhs; rw [div_eq_mul_inv]; ring
  simp only [SSWU.new, SSWU.verify, Curve.getField, hf, ha, hb, isZero_el, isSquare_el, R.ok_bind, fromPrim_eq,
    R.fmul_ok, mul_el, R.finv_ok, u32Div_el, R.fsqr_ok, sqr_el, R.fadd_ok, add_el, R.fneg_ok, neg_el, R.pure_eq, hg,
    bne, el_beq, Int.cast_neg, Int.cast_one]
  by_cases h1 : a = 0 <;> by_cases h2 : b = 0 <;> by_cases h3 : IsSquare z <;> by_cases h4 : z = -1 <;>
    by_cases h5 : IsSquare (rhs a b (b / (z * a))) <;> simp [h1, h2, h3, h4, h5]

theorem sswu_map (hs : SqrtOK p) (hf : e.f = ⟨p⟩) (ha : e.a = el a) (hb : e.b = el b) (ha0 : a ≠ 0) (hb0 : b ≠ 0)
    (z u : ZMod p) (hz : z ≠ 0) :
    ∃ x y2 : ZMod p, x = sswuX a b z u ∧
      (IsSquare (rhs a b (b / (z * a))) → ¬ IsSquare z → y2 = rhs a b x ∧ IsSquare y2) ∧
      SSWU.map ⟨e, el (-b * a⁻¹), el (-z⁻¹), el z⟩ (el u) = e.newPoint (el x) (el (matchSign u (sqrtZ y2))) := by
  classical
  set t := z * (u * u) with ht
  have ht' : z * u ^ 2 = t := by rw [ht]; ring
  set x1 := (if (t + t * t)⁻¹ = 0 then -z⁻¹ else (t + t * t)⁻¹ + 1) * (-b * a⁻¹) with hx1
  have hg1 : (x1 * x1 + a) * x1 + b = rhs a b x1 := by unfold rhs; ring
  have hx1' : x1 = if t ^ 2 + t = 0 then b / (z * a) else (-b / a) * (1 + 1 / (t ^ 2 + t)) := by
    rw [hx1, show t ^ 2 + t = t + t * t by ring]
    simp only [inv_eq_zero]
    split_ifs with h
    · field_simp
    · field_simp; ring
  have hX : (if IsSquare (rhs a b x1) then x1 else t * x1) = sswuX a b z u := by
    simp only [sswuX, ht']
    rw [← hx1']
  refine ⟨_, if IsSquare (rhs a b x1) then rhs a b x1 else rhs a b x1 * (t * (t * t)), hX, ?_, ?_⟩
  · intro h0 hzn
    by_cases hsq : IsSquare (rhs a b x1)
    · rw [if_pos hsq, if_pos hsq]; exact ⟨rfl, hsq⟩
    · rw [if_neg hsq, if_neg hsq]
      have hne : t + t * t ≠ 0 := by
        intro h
        apply hsq
        rw [hx1', if_pos (by linear_combination h)]
        exact h0
      have hid := MapId.sswu_id (b := b) ha0 hne
      rw [hx1, if_neg (by simpa using hne)]
      rw [hx1, if_neg (by simpa using hne)] at hsq
      unfold MapId.g at hid
      unfold rhs at hsq ⊢
      refine ⟨by rw [hid]; ring, ?_⟩
      generalize (((t + t * t)⁻¹ + 1) * (-b * a⁻¹)) ^ 3 + a * (((t + t * t)⁻¹ + 1) * (-b * a⁻¹)) + b = G at *
      obtain ⟨r, hr⟩ := (MapId.isSquare_mul_of_not hsq hzn).mul (IsSquare.sq (z * u ^ 3))
      exact ⟨r, by rw [← hr, ht]; ring⟩
  · simp only [SSWU.map, Curve.getField, hf, ha, hb, isZero_el, isSquare_el, R.ok_bind, R.fmul_ok, mul_el, R.finv_ok,
      u32Div_el, R.fsqr_ok, sqr_el, R.fadd_ok, add_el, R.fneg_ok, neg_el, one_eq, cmov_el, sqrt_el hs, sgn0_beq,
      decide_eq_true_eq, ← ht, ← hx1, hg1, matchSign]

open Classical in
theorem svdw_new (hs : SqrtOK p) (hf : e.f = ⟨p⟩) (ha : e.a = el a) (hb : e.b = el b) (z : ZMod p) :
    SVDW.new e (el z) = if rhs a b z ≠ 0 ∧ 3 * z ^ 2 + 4 * a ≠ 0 ∧ IsSquare (-(3 * z ^ 2 + 4 * a) / (4 * rhs a b z)) ∧
        (IsSquare (rhs a b z) ∨ IsSquare (rhs a b (-z / 2))) then
      R.ok ⟨e, el (rhs a b z), el (-z / 2), el (matchSign 0 (sqrtZ (-rhs a b z * (3 * z ^ 2 + 4 * a)))),
        el (-4 * rhs a b z / (3 * z ^ 2 + 4 * a)), el z⟩ else R.panic .wrongParams := by
  have hg : ∀ x : ZMod p, SVDW.gx e (el x) = R.ok (el (rhs a b x)) := by
    intro x
    simp only [SVDW.gx, ha, hb, R.fsqr_ok, sqr_el, R.fadd_ok, add_el, R.fmul_ok, mul_el, rhs]
    congr 2; ring
  have h4 : (4 : ZMod p) ≠ 0 := by
    have : (4 : ZMod p) = 2 * 2 := by norm_num
    rw [this]; exact mul_ne_zero (two_ne_zero' (by have := Fact.out (p := 2 < p); omega)) (two_ne_zero' (by have := Fact.out (p := 2 < p); omega))
  have e1 : -(3 * z ^ 2 + 4 * a) * (4 * rhs a b z)⁻¹ = -(3 * z ^ 2 + 4 * a) / (4 * rhs a b z) := by
    rw [div_eq_mul_inv]
  have e2 : -z * 2⁻¹ = -z / 2 := by rw [div_eq_mul_inv]
  have e3 : 3 * (z * z) + 4 * a = 3 * z ^ 2 + 4 * a := by ring
  simp only [SVDW.new, SVDW.verify, Curve.getField, hf, ha, hg, isZero_el, isSquare_el, R.ok_bind, fromPrim_eq,
    R.fmul_ok, mul_el, R.finv_ok, u32Div_el, R.fsqr_ok, sqr_el, R.fadd_ok, add_el, R.fneg_ok, neg_el, R.pure_eq,
    Int.cast_ofNat, e1, e2, e3, neg_neg, sqrt_el hs]
  generalize hh : 3 * z ^ 2 + 4 * a = h
  generalize hG : rhs a b z = G
  generalize hG2 : rhs a b (-z / 2) = G2
  have e4 : 4 * -G * h⁻¹ = -4 * G / h := by rw [div_eq_mul_inv]; ring
  rw [e4]
  generalize sqrtZ (-G * h) = S
  generalize -4 * G / h = C4
  by_cases h1 : G = 0
  · simp [h1]
  by_cases h2 : h = 0
  · simp [h2]
  have h3 : -h / (4 * G) ≠ 0 := div_ne_zero (neg_ne_zero.2 h2) (mul_ne_zero h4 h1)
  generalize -h / (4 * G) = D at *
  have hS : (el S).sgn0 = if S.val % 2 = 0 then 1 else -1 := sgn0_el S
  rcases Nat.mod_two_eq_zero_or_one S.val with hp | hp <;>
  by_cases h5 : IsSquare D <;> by_cases h6 : IsSquare G <;> by_cases h7 : IsSquare G2 <;>
    simp [h1, h2, h3, h5, h6, h7, hS, hp, matchSign]

theorem svdw_map (hs : SqrtOK p) (hf : e.f = ⟨p⟩) (ha : e.a = el a) (hb : e.b = el b) 
    (z c u : ZMod p) (hG : rhs a b z ≠ 0) (hh : 3 * z ^ 2 + 4 * a ≠ 0) (hc : c ^ 2 = -rhs a b z * (3 * z ^ 2 + 4 * a))
    (hsq : IsSquare (rhs a b z) ∨ IsSquare (rhs a b (-z / 2))) :
    ∃ x : ZMod p, x = svdwX a b z c u ∧ IsSquare (rhs a b x) ∧
      SVDW.map ⟨e, el (rhs a b z), el (-z / 2), el c, el (-4 * rhs a b z / (3 * z ^ 2 + 4 * a)), el z⟩ (el u) =
        e.newPoint (el x) (el (matchSign u (sqrtZ (rhs a b x)))) := by
  classical
  have h2 : (2 : ZMod p) ≠ 0 := two_ne_zero' (by have := Fact.out (p := 2 < p); omega)
  have eg : ∀ x : ZMod p, (x * x + a) * x + b = rhs a b x := fun x => by unfold rhs; ring
  obtain ⟨v, hv⟩ : ∃ v, v = 1 - u * u * rhs a b z := ⟨_, rfl⟩
  obtain ⟨w, hw⟩ : ∃ w, w = 1 + u * u * rhs a b z := ⟨_, rfl⟩
  obtain ⟨x1, hx1⟩ : ∃ x1, x1 = -z / 2 - u * v * (v * w)⁻¹ * c := ⟨_, rfl⟩
  obtain ⟨x2, hx2⟩ : ∃ x2, x2 = -z / 2 + u * v * (v * w)⁻¹ * c := ⟨_, rfl⟩
  obtain ⟨x3, hx3⟩ : ∃ x3, x3 = w * w * (v * w)⁻¹ * (w * w * (v * w)⁻¹) * (-4 * rhs a b z / (3 * z ^ 2 + 4 * a)) + z :=
    ⟨_, rfl⟩
  have hX : (if IsSquare (rhs a b x1) then x1 else if IsSquare (rhs a b x2) then x2 else x3) = svdwX a b z c u := by
    simp only [svdwX, hx1, hx2, hx3, hv, hw, one_div]
    congr 1
    · congr 4; ring
    · ring
    · congr 1
      · congr 4; ring
      · ring
      · ring
  refine ⟨if IsSquare (rhs a b x1) then x1 else if IsSquare (rhs a b x2) then x2 else x3, hX, ?_, ?_⟩
  · split_ifs with h1 h3
    · exact h1
    · exact h3
    · by_cases h0 : v * w = 0
      · rw [h0, inv_zero] at hx1 hx3
        simp only [mul_zero, zero_mul, sub_zero, zero_add] at hx1 hx3
        rw [hx1] at h1
        rw [hx3]
        exact hsq.resolve_right h1
      · have hv0 : v ≠ 0 := left_ne_zero_of_mul h0
        have hw0 : w ≠ 0 := right_ne_zero_of_mul h0
        have key := MapId.svdw_third h2 (a := a) (b := b) (z := z) (c := c) (u := u) (v := v) (w := w) hc
          (by rw [hv]; unfold rhs MapId.g; ring) (by rw [hw]; unfold rhs MapId.g; ring) hv0 hw0 hh
        have f1 : x1 = -z * 2⁻¹ - u * c / w := by rw [hx1]; field_simp
        have f2 : x2 = -z * 2⁻¹ + u * c / w := by rw [hx2]; field_simp
        have f3 : x3 = z - 4 * MapId.g a b z / (3 * z ^ 2 + 4 * a) * (w / v) ^ 2 := by
          rw [hx3]; unfold rhs MapId.g
          have : w * w * (v * w)⁻¹ = w / v := by field_simp
          rw [this]; ring
        rw [← f1, ← f2, ← f3] at key
        change rhs a b x3 = _ * (rhs a b x1 * rhs a b x2) at key
        rw [key]
        exact MapId.isSquare_sq_mul (MapId.isSquare_mul_of_not h1 h3)
  · simp only [SVDW.map, Curve.getField, hf, ha, hb, isSquare_el, R.ok_bind, R.fmul_ok, mul_el, R.finv_ok,
      u32Div_el, R.fsqr_ok, sqr_el, R.fadd_ok, add_el, R.fsub_ok, sub_el, neg_el, one_eq, cmov_el, sqrt_el hs, sgn0_beq,
      decide_eq_true_eq, ← hv, ← hw, ← hx1, ← hx2, ← hx3, eg]
    by_cases h1 : IsSquare (rhs a b x1) <;> by_cases h3 : IsSquare (rhs a b x2) <;>
      simp [h1, h3, matchSign, eg]
end

end WLink

namespace MLink

open Montgomery

section
variable {p : ℕ} [Fact p.Prime] [Fact (2 < p)] {e : Curve} {a b : ZMod p}

theorem ell2_new (ha : e.a = el a) (hb : e.b = el b) (z : FpElt) :
    Ell2.new e z = if a ≠ 0 ∧ b ≠ 0 then R.ok ⟨e, z, el (a * b), el ((b⁻¹) ^ 2)⟩ else R.panic .wrongParams := by
  have e1 : a / b⁻¹ = a * b := by rw [div_inv_eq_mul]
  simp only [Ell2.new, Ell2.verify, ha, hb, isZero_el, R.finv_ok, u32Div_el, R.ok_bind, R.fdiv_ok, div_el, R.fsqr_ok,
    sqr_el, R.pure_eq, e1, ← pow_two]
  by_cases h1 : a = 0 <;> by_cases h2 : b = 0 <;> simp [h1, h2]

/-- The sign chosen by `Ell2::map`: odd for the first candidate, even for the second. -/
def oddSign (odd : Prop) [Decidable odd] (y : ZMod p) : ZMod p :=
  if odd ↔ y.val % 2 = 1 then y else -y

/-- `Ell2::map` with constants `c = ca`, `d = cb`. -/
theorem ell2_map (hs : SqrtOK p) (hf : e.f = ⟨p⟩) (hb : e.b = el b) (z c d u : ZMod p) :
    ∃ (odd : Prop) (_ : Decidable odd) (t x1 gx1 x y2 : ZMod p),
      t = (if z * u ^ 2 = -1 then 0 else z * u ^ 2) ∧ x1 = -c * (t + 1)⁻¹ ∧ gx1 = x1 ^ 3 + c * x1 ^ 2 + d * x1 ∧
      (odd ↔ IsSquare gx1) ∧ x = (if odd then x1 else -x1 - c) ∧ y2 = (if odd then gx1 else t * gx1) ∧
      Ell2.map ⟨e, el z, el c, el d⟩ (el u) = e.newPoint (el (x * b)) (el (oddSign odd (sqrtZ y2) * b)) := by
  classical
  obtain ⟨t, ht⟩ : ∃ t, t = (if z * (u * u) = -1 then 0 else z * (u * u)) := ⟨_, rfl⟩
  obtain ⟨x1, hx1⟩ : ∃ x1, x1 = -c * (t + 1)⁻¹ := ⟨_, rfl⟩
  obtain ⟨gx1, hg⟩ : ∃ gx1, gx1 = ((x1 + c) * x1 + d) * x1 := ⟨_, rfl⟩
  refine ⟨IsSquare gx1, inferInstance, t, x1, gx1, _, _, by rw [ht, pow_two], hx1, by rw [hg]; ring, Iff.rfl, rfl, rfl, ?_⟩
  simp only [Ell2.map, Curve.getField, hf, hb, isSquare_el, R.ok_bind, R.fmul_ok, mul_el, R.finv_ok,
    u32Div_el, R.fsqr_ok, sqr_el, R.fadd_ok, add_el, R.fsub_ok, sub_el, R.fneg_ok, neg_el, one_eq, zero_eq, cmov_el,
    sqrt_el hs, sgn0_one, fromPrim_eq, el_beq, Int.cast_neg, Int.cast_one, decide_eq_true_eq, ← ht, ← hx1, ← hg]
  by_cases h : IsSquare gx1
  · simp only [h, if_true, oddSign, true_iff]
    rcases Nat.mod_two_eq_zero_or_one (sqrtZ gx1).val with h' | h' <;> simp [h']
  · simp only [h, if_false, oddSign, false_iff]
    rcases Nat.mod_two_eq_zero_or_one (sqrtZ (t * gx1)).val with h' | h' <;> simp [h']

end

end MLink
end Redox
