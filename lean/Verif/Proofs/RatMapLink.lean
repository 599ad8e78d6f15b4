import Verif.Spec.RatMaps
import Verif.Proofs.EdwLink
import Verif.Proofs.MontLink

/-! # The maps between Edwards and Montgomery curves in terms of `ZMod p` -/

set_option linter.unusedSectionVars false

namespace Redox.RLink

open Spec Edw

section iso
open WeierstrassCurve
variable {F : Type*} [Field F] [DecidableEq F] {a d : F} [he : EdCurve a d]

/-- The isomorphism of `Verif.Math.Edwards`, for any curve with the right coefficients. -/
theorem exists_iso {c : F} (hc : c ≠ 0) (W : Affine F) (hW : W = WE a d c) :
    ∃ φ : EPt a d ≃+ W.Point, ∀ P : EPt a d, ∀ B, B = φ P →
      match B with
      | .zero => P.x = 0 ∧ P.y = 1
      | .some X Y _ => P.y ≠ 1 ∧ X * (1 - P.y) = c ^ 2 * (a - d) * (1 + P.y) ∧ Y * P.x = 2 * c * X := by
  subst hW
  refine ⟨phiEquiv hc, fun P B hB => ?_⟩
  have := phiEquiv_spec hc P
  rw [← hB] at this
  cases B <;> exact this

end iso

section ed2mt
variable {p : ℕ} [Fact p.Prime] {m : Ed2Mt25519} [he0 : ECurve p m.e0] (h : Ed2MtOK p m)
include h

/-- The correspondence is an isomorphism of groups. -/
theorem exists_phi : ∃ φ : eGroup p m.e0 ≃+ (mGroup p m.e1).Point,
    ∀ A, Corresponds (val p m.invsqr_d) A (φ A) := by
  have hed := instEdCurve p m.e0
  have two := hed.two
  have hk := a_ne_d (a := val p m.e0.a) (d := val p m.e0.d)
  obtain ⟨a, ha⟩ : ∃ a, a = val p m.e0.a := ⟨_, rfl⟩
  obtain ⟨d, hd⟩ : ∃ d, d = val p m.e0.d := ⟨_, rfl⟩
  obtain ⟨c, hc⟩ : ∃ c, c = val p m.invsqr_d := ⟨_, rfl⟩
  have h1 := h.const
  have h2 := h.coeff
  rw [← ha, ← hd] at hk h1 h2
  rw [← hc] at h1 ⊢
  have four : (4 : ZMod p) ≠ 0 := by
    have : (4 : ZMod p) = 2 * 2 := by ring
    rw [this]; exact mul_ne_zero two two
  have hc0 : c ≠ 0 := by rintro rfl; exact four (by linear_combination -h1)
  have e1 : (c / 2) ^ 2 * (a - d) = 1 := by field_simp; linear_combination h1
  have e2 : val p m.e1.a = 2 * (a + d) * (c / 2) ^ 2 := by
    have : val p m.e1.a = val p m.e1.a * (a - d) * (c / 2) ^ 2 := by linear_combination -val p m.e1.a * e1
    rw [this, h2]
  obtain ⟨φ, hφ⟩ := exists_iso (a := val p m.e0.a) (d := val p m.e0.d) (c := c / 2) (div_ne_zero hc0 two)
    (mGroup p m.e1) (by rw [← ha, ← hd]; unfold mGroup WE; rw [e2, mul_comm (a - d), e1, one_pow])
  refine ⟨φ, fun A => ?_⟩
  have := hφ A _ rfl
  rcases hB : φ A with _ | ⟨u, v, hn⟩
  · rw [hB] at this; exact this
  · rw [hB] at this
    simp only [← ha, ← hd] at this
    obtain ⟨f0, f1, f2⟩ := this
    have f0' : 1 - A.y ≠ 0 := fun h => f0 (sub_eq_zero.1 h).symm
    refine ⟨f0, ?_, fun hx => ?_, fun hx => ?_⟩
    · rw [eq_div_iff f0', f1, e1, one_mul]
    · rw [eq_div_iff hx, f2]; field_simp
    · have hu : u = 0 := by
        rw [hx, mul_zero] at f2
        have : c * u = 0 := by rw [show c * u = 2 * (c / 2) * u by field_simp]; exact f2.symm
        exact (mul_eq_zero.1 this).resolve_left hc0
      have := ((Mont.nonsingular_iff _ u v).1 hn).1
      rw [hu] at this
      simpa using this

theorem push_pt (x y t z : ZMod p) : m.push (ELink.pt m.e0 x y t z) =
    if x = 0 ∧ y ≠ 0 ∧ t = 0 ∧ z ≠ 0 then R.ok (MLink.pt m.e1 (0 : ZMod p) 1 0)
    else m.e1.newProyPoint ⟨el (x * (z + y)), el (val p m.invsqr_d * z * (z + y)), el (x * (z - y))⟩ := by
  have hc := h.canon_c.eq_el
  obtain ⟨c, hc'⟩ : ∃ c, c = val p m.invsqr_d := ⟨_, rfl⟩
  rw [← hc'] at hc ⊢
  unfold Ed2Mt25519.push
  rw [ELink.isZero_pt]
  by_cases hz : x = 0 ∧ y ≠ 0 ∧ t = 0 ∧ z ≠ 0
  · rw [if_pos hz, if_pos (by simpa using hz), MLink.identity_pt h.e1]
  · rw [if_neg hz, if_neg (by simpa using hz)]
    simp only [ELink.pt, hc]
    simp only [R.fadd_ok, add_el, R.ok_bind, R.fmul_ok, mul_el, R.fsub_ok, sub_el]

theorem pull_pt (x y z : ZMod p) : m.pull (MLink.pt m.e1 x y z) =
    if x = 0 ∧ y ≠ 0 ∧ z = 0 then R.ok (ELink.pt m.e0 (0 : ZMod p) 1 0 1)
    else if y = 0 ∧ z = 1 then R.ok (ELink.pt m.e0 (0 : ZMod p) (-1) 0 1)
    else m.e0.newProyPoint ⟨el (val p m.invsqr_d * x * (x + z)), el (y * (x - z)), el (val p m.invsqr_d * x * (x - z)),
      el (y * (x + z))⟩ := by
  haveI : Fact (2 < p) := ⟨ELink.two_lt_of he0.params⟩
  have hc := h.canon_c.eq_el
  obtain ⟨c, hc'⟩ : ∃ c, c = val p m.invsqr_d := ⟨_, rfl⟩
  rw [← hc'] at hc ⊢
  unfold Ed2Mt25519.pull
  rw [MLink.isZero_pt]
  by_cases hz : x = 0 ∧ y ≠ 0 ∧ z = 0
  · rw [if_pos hz, if_pos (by simpa using hz), ELink.identity_pt he0.params]
  · rw [if_neg hz, if_neg (by simpa using hz)]
    have ht : (MLink.pt m.e1 x y z).isTwoTorsion = decide (y = 0 ∧ z = 1) := by
      simp [Montgomery.Point.isTwoTorsion, MLink.pt]
    rw [ht]
    by_cases h2 : y = 0 ∧ z = 1
    · rw [if_pos h2, if_pos (by simpa using h2)]
      simp only [Edwards.Curve.getField, he0.params.field, zero_eq, one_eq, R.ok_bind, R.fneg_ok, neg_el]
      rw [ELink.newProyPoint_pt (ELink.ea he0.params) (ELink.ed he0.params), if_pos ⟨by ring, by ring⟩]
    · rw [if_neg h2, if_neg (by simpa using h2)]
      simp only [MLink.pt, hc]
      simp only [R.fadd_ok, add_el, R.ok_bind, R.fmul_ok, mul_el, R.fsub_ok, sub_el]

end ed2mt

section ed4
variable {p : ℕ} [Fact p.Prime] {m : Ed4isoMt448} [he0 : ECurve p m.e0] (h : Ed4OK p m)
include h

theorem push448_pt (x y t z : ZMod p) : m.push (ELink.pt m.e0 x y t z) =
    if x = 0 ∧ y ≠ 0 ∧ t = 0 ∧ z ≠ 0 then R.ok (MLink.pt m.e1 (0 : ZMod p) 1 0)
    else m.e1.newProyPoint ⟨el (x * y ^ 2), el (y * (2 * z ^ 2 - y ^ 2 - x ^ 2)), el (x * x ^ 2)⟩ := by
  unfold Ed4isoMt448.push
  rw [ELink.isZero_pt]
  by_cases hz : x = 0 ∧ y ≠ 0 ∧ t = 0 ∧ z ≠ 0
  · rw [if_pos hz, if_pos (by simpa using hz), MLink.identity_pt h.e1]
  · rw [if_neg hz, if_neg (by simpa using hz)]
    simp only [ELink.pt, Montgomery.Curve.getField, h.e1.field]
    simp only [fromPrim_eq, R.fsqr_ok, sqr_el, R.fadd_ok, add_el, R.ok_bind, R.fmul_ok, mul_el, R.fsub_ok, sub_el]
    congr 3
    all_goals push_cast; ring

theorem pull448_pt (x y z : ZMod p) : m.pull (MLink.pt m.e1 x y z) =
    if x = 0 ∧ y ≠ 0 ∧ z = 0 then R.ok (ELink.pt m.e0 (0 : ZMod p) 1 0 1)
    else m.e0.newProyPoint ⟨
      el (4 * y * z * (x ^ 2 - z ^ 2) * (x ^ 5 - 2 * x ^ 3 * z ^ 2 + x * z ^ 4 - 2 * x ^ 2 * y ^ 2 * z - 2 * y ^ 2 * z ^ 3)),
      el (-(x ^ 5 - 2 * x ^ 3 * z ^ 2 + x * z ^ 4 - 4 * x * y ^ 2 * z ^ 2) * (x ^ 4 - 2 * x ^ 2 * z ^ 2 + z ^ 4 + 4 * y ^ 2 * z ^ 2)),
      el (4 * y * z * (x ^ 2 - z ^ 2) * -(x ^ 5 - 2 * x ^ 3 * z ^ 2 + x * z ^ 4 - 4 * x * y ^ 2 * z ^ 2)),
      el ((x ^ 4 - 2 * x ^ 2 * z ^ 2 + z ^ 4 + 4 * y ^ 2 * z ^ 2) *
        (x ^ 5 - 2 * x ^ 3 * z ^ 2 + x * z ^ 4 - 2 * x ^ 2 * y ^ 2 * z - 2 * y ^ 2 * z ^ 3))⟩ := by
  unfold Ed4isoMt448.pull
  rw [MLink.isZero_pt]
  by_cases hz : x = 0 ∧ y ≠ 0 ∧ z = 0
  · rw [if_pos hz, if_pos (by simpa using hz), ELink.identity_pt he0.params]
  · rw [if_neg hz, if_neg (by simpa using hz)]
    simp only [MLink.pt, Edwards.Curve.getField, he0.params.field]
    simp only [fromPrim_eq, R.fsqr_ok, sqr_el, R.fadd_ok, add_el, R.ok_bind, R.fmul_ok, mul_el, R.fsub_ok, sub_el,
      R.fneg_ok, neg_el]
    congr 3
    all_goals push_cast; ring

end ed4
end Redox.RLink
