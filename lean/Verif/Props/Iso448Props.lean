import Verif.Proofs.RatMapLink
import Verif.Props.EdwPoints
import Verif.Props.MontPoints
import Verif.Instances.Edwards448
import Verif.Instances.Curve448

/-!
# C48: the 4-isogeny between edwards448 and curve448
-/

set_option linter.unusedSectionVars false

namespace Redox.Props.Iso4

open Spec Edw

section
variable {p : ℕ} [Fact p.Prime] {m : Ed4isoMt448} [he0 : ECurve p m.e0]

theorem exists_point (h : Ed4OK p m) {u v : ZMod p} (hc : v ^ 2 = u ^ 3 + val p m.e1.a * u ^ 2 + u) :
    (mGroup p m.e1).Nonsingular u v := by
  obtain ⟨A, hA⟩ := MLink.exists_rep h.e1.odd (MLink.ea_ne h.e1) (x := u) (y := v) (z := 1)
    (by linear_combination hc) (Or.inr one_ne_zero)
  rcases A with _ | ⟨u', v', hn⟩
  · exact absurd hA.2.2 one_ne_zero
  · obtain ⟨-, e1, e2⟩ := hA
    rw [mul_one] at e1 e2
    subst e1 e2
    exact hn

theorem curve_eq (h : Ed4OK p m) (A : eGroup p m.e0) :
    A.x ^ 2 + A.y ^ 2 = 1 + val p m.e0.d * A.x ^ 2 * A.y ^ 2 := by
  have := A.h
  linear_combination this - A.x ^ 2 * h.a_one

/-- The image under the 4-isogeny exists. -/
theorem push448_exists (h : Ed4OK p m) (A : eGroup p m.e0) : ∃ B : (mGroup p m.e1).Point, Push448 A B := by
  by_cases hx : A.x = 0
  · exact ⟨0, hx⟩
  · have hc := curve_eq h A
    refine ⟨.some (A.y ^ 2 / A.x ^ 2) ((2 - A.x ^ 2 - A.y ^ 2) * A.y / A.x ^ 3) (exists_point h ?_), hx, rfl, rfl⟩
    rw [h.coeff]
    field_simp
    linear_combination -4 * A.y ^ 2 * hc

theorem push448_rep {A : eGroup p m.e0} {B : (mGroup p m.e1).Point} (hB : Push448 A B) {z : ZMod p} (hz : z ≠ 0)
    (hx : A.x ≠ 0) : Mont.Rep B (A.x * z * (A.y * z) ^ 2)
      (A.y * z * (2 * z ^ 2 - (A.y * z) ^ 2 - (A.x * z) ^ 2)) (A.x * z * (A.x * z) ^ 2) := by
  rcases B with _ | ⟨u, v, hn⟩
  · exact absurd hB hx
  · obtain ⟨-, rfl, rfl⟩ := hB
    refine ⟨by positivity, by field_simp, by field_simp; ring⟩

/-- `push` on all points. -/
theorem push_denotes (h : Ed4OK p m) {P : Edwards.Point} {A : eGroup p m.e0} {B : (mGroup p m.e1).Point}
    (hP : EDenotes p m.e0 P A) (hB : Push448 A B) : MReturns p m.e1 (m.push P) B := by
  obtain ⟨x, y, t, z, rfl, hz, rfl, rfl, rfl⟩ := ELink.denotes_iff.1 hP
  rw [RLink.push448_pt h]
  by_cases hx : A.x = 0
  · have hy : A.y ≠ 0 := by
      intro hy
      have := curve_eq h A
      rw [hx, hy] at this
      simp at this
    rw [if_pos (by simp [hx, hy, hz])]
    rcases B with _ | ⟨u, v, hn⟩
    · exact ⟨_, rfl, MLink.denotes_iff.2 ⟨_, _, _, rfl, rfl, one_ne_zero, rfl⟩⟩
    · exact absurd hx hB.1
  · rw [if_neg (fun hh => hx ((mul_eq_zero.1 hh.1).resolve_right hz))]
    have hr := push448_rep hB hz hx
    exact ⟨_, MLink.newProyPoint_rep h.e1 h.b_one hr, MLink.denotes_iff.2 ⟨_, _, _, rfl, hr⟩⟩

theorem den0_ne (h : Ed4OK p m) {u v : ZMod p} (hu : u ≠ 0) (hc : v ^ 2 = u ^ 3 + val p m.e1.a * u ^ 2 + u) :
    u ^ 4 - 2 * u ^ 2 + 4 * v ^ 2 + 1 ≠ 0 := by
  have two := (instEdCurve p m.e0).two
  intro h0
  apply he0.d_nsq
  rw [h.coeff] at hc
  have e : (u + 1) ^ 4 = 16 * val p m.e0.d * u ^ 2 := by linear_combination h0 - 4 * hc
  refine ⟨(u + 1) ^ 2 / (2 * 2 * u), ?_⟩
  field_simp
  linear_combination -e

theorem den1_ne (h : Ed4OK p m) {u v : ZMod p} (hu : u ≠ 0) (hc : v ^ 2 = u ^ 3 + val p m.e1.a * u ^ 2 + u) :
    u ^ 5 - 2 * u ^ 2 * v ^ 2 - 2 * u ^ 3 - 2 * v ^ 2 + u ≠ 0 := by
  intro h0
  apply h.single
  refine ⟨(u ^ 2 + 1 + val p m.e1.a * u) / u, ?_⟩
  have e : u * ((u ^ 2 + 1 + val p m.e1.a * u) ^ 2 - (val p m.e1.a ^ 2 - 4) * u ^ 2) = 0 := by
    linear_combination -h0 - (2 * u ^ 2 + 2) * hc
  have := (mul_eq_zero.1 e).resolve_left hu
  field_simp
  linear_combination -this

/-- The image under the dual 4-isogeny exists. -/
theorem pull448_exists (h : Ed4OK p m) (B : (mGroup p m.e1).Point) : ∃ A : eGroup p m.e0, Pull448 A B := by
  rcases B with _ | ⟨u, v, hn⟩
  · exact ⟨0, rfl, rfl⟩
  · have hc := ((Mont.nonsingular_iff _ u v).1 hn).1
    by_cases hu : u = 0
    · subst hu
      exact ⟨0, Or.inl ⟨rfl, by simpa using hc, rfl, rfl⟩⟩
    · have d0 := den0_ne h hu hc
      have d1 := den1_ne h hu hc
      refine ⟨⟨_, _, ?_⟩, Or.inr ⟨hu, d0, d1, rfl, rfl⟩⟩
      rw [h.a_one]
      have hc' : v ^ 2 = u * (u ^ 2 + (2 - 4 * val p m.e0.d) * u + 1) := by
        rw [← h.coeff]; linear_combination hc
      have e0 : u ^ 4 - 2 * u ^ 2 + 4 * v ^ 2 + 1 = (u + 1) ^ 4 - 16 * val p m.e0.d * u ^ 2 := by
        rw [hc']; ring
      have e1 : u ^ 5 - 2 * u ^ 2 * v ^ 2 - 2 * u ^ 3 - 2 * v ^ 2 + u =
          -u * ((u ^ 2 + 1) ^ 2 + 2 * (2 - 4 * val p m.e0.d) * u * (u ^ 2 + 1) + 4 * u ^ 2) := by
        linear_combination (-2 * u ^ 2 - 2) * hc'
      have e2 : u ^ 5 - 2 * u ^ 3 - 4 * u * v ^ 2 + u = u * ((u ^ 2 - 1) ^ 2 - 4 * (u * (u ^ 2 + (2 - 4 * val p m.e0.d) * u + 1))) := by
        linear_combination -4 * u * hc'
      rw [e0] at d0
      rw [e1] at d1
      have d1' := (mul_ne_zero_iff.1 d1).2
      rw [e0, e1, e2, div_pow, mul_pow, mul_pow, hc']
      generalize hd : val p m.e0.d = d at *
      generalize hD0 : (u + 1) ^ 4 - 16 * d * u ^ 2 = D0 at *
      generalize hD1 : (u ^ 2 + 1) ^ 2 + 2 * (2 - 4 * d) * u * (u ^ 2 + 1) + 4 * u ^ 2 = D1 at *
      field_simp
      rw [← hD0, ← hD1]
      ring

theorem pull448_unique {A A' : eGroup p m.e0} {B : (mGroup p m.e1).Point} (h1 : Pull448 A B) (h2 : Pull448 A' B) : A = A' := by
  rcases B with _ | ⟨u, v, hn⟩
  · obtain ⟨a, b⟩ := h1
    obtain ⟨c, d⟩ := h2
    ext
    · rw [a, c]
    · rw [b, d]
  · rcases h1 with ⟨hu, -, a, b⟩ | ⟨hu, -, -, a, b⟩ <;> rcases h2 with ⟨hu', -, c, d⟩ | ⟨hu', -, -, c, d⟩
    · ext
      · rw [a, c]
      · rw [b, d]
    · exact absurd hu hu'
    · exact absurd hu' hu
    · ext
      · rw [a, c]
      · rw [b, d]

/-- `pull` on all points other than `(0, 0)`. -/
theorem pull_denotes (h : Ed4OK p m) {Q : Montgomery.Point} {A : eGroup p m.e0} {B : (mGroup p m.e1).Point}
    (hQ : MDenotes p m.e1 Q B) (hA : Pull448 A B) (h0 : ∀ hn, B ≠ .some 0 0 hn) : EReturns p m.e0 (m.pull Q) A := by
  obtain ⟨x, y, z, rfl, hr⟩ := MLink.denotes_iff.1 hQ
  rw [RLink.pull448_pt h]
  rcases B with _ | ⟨u, v, hn⟩
  · obtain ⟨rfl, hy, rfl⟩ := hr
    rw [if_pos ⟨rfl, hy, rfl⟩]
    have : A = 0 := by ext; exacts [hA.1, hA.2]
    subst this
    exact ⟨_, rfl, ELink.identity_denotes⟩
  · obtain ⟨hz, rfl, rfl⟩ := hr
    rw [if_neg (fun hh => hz hh.2.2)]
    rcases hA with ⟨rfl, rfl, -, -⟩ | ⟨hu, d0, d1, ax, ay⟩
    · exact absurd rfl (h0 hn)
    · have hrr : ELink.ERep A
          (4 * (v * z) * z * ((u * z) ^ 2 - z ^ 2) *
            ((u * z) ^ 5 - 2 * (u * z) ^ 3 * z ^ 2 + u * z * z ^ 4 - 2 * (u * z) ^ 2 * (v * z) ^ 2 * z - 2 * (v * z) ^ 2 * z ^ 3))
          (-((u * z) ^ 5 - 2 * (u * z) ^ 3 * z ^ 2 + u * z * z ^ 4 - 4 * (u * z) * (v * z) ^ 2 * z ^ 2) *
            ((u * z) ^ 4 - 2 * (u * z) ^ 2 * z ^ 2 + z ^ 4 + 4 * (v * z) ^ 2 * z ^ 2))
          (4 * (v * z) * z * ((u * z) ^ 2 - z ^ 2) *
            -((u * z) ^ 5 - 2 * (u * z) ^ 3 * z ^ 2 + u * z * z ^ 4 - 4 * (u * z) * (v * z) ^ 2 * z ^ 2))
          (((u * z) ^ 4 - 2 * (u * z) ^ 2 * z ^ 2 + z ^ 4 + 4 * (v * z) ^ 2 * z ^ 2) *
            ((u * z) ^ 5 - 2 * (u * z) ^ 3 * z ^ 2 + u * z * z ^ 4 - 2 * (u * z) ^ 2 * (v * z) ^ 2 * z - 2 * (v * z) ^ 2 * z ^ 3)) := by
        rw [eq_div_iff d0] at ax
        rw [eq_div_iff d1] at ay
        refine ⟨?_, ?_, ?_, ?_⟩
        · rw [show ((u * z) ^ 4 - 2 * (u * z) ^ 2 * z ^ 2 + z ^ 4 + 4 * (v * z) ^ 2 * z ^ 2) *
            ((u * z) ^ 5 - 2 * (u * z) ^ 3 * z ^ 2 + u * z * z ^ 4 - 2 * (u * z) ^ 2 * (v * z) ^ 2 * z - 2 * (v * z) ^ 2 * z ^ 3) =
            z ^ 9 * (u ^ 4 - 2 * u ^ 2 + 4 * v ^ 2 + 1) * (u ^ 5 - 2 * u ^ 2 * v ^ 2 - 2 * u ^ 3 - 2 * v ^ 2 + u) by ring]
          positivity
        · linear_combination -z ^ 9 * (u ^ 5 - 2 * u ^ 2 * v ^ 2 - 2 * u ^ 3 - 2 * v ^ 2 + u) * ax
        · linear_combination -z ^ 9 * (u ^ 4 - 2 * u ^ 2 + 4 * v ^ 2 + 1) * ay
        · linear_combination -z ^ 9 * (A.y * (u ^ 5 - 2 * u ^ 2 * v ^ 2 - 2 * u ^ 3 - 2 * v ^ 2 + u)) * ax -
            z ^ 9 * (4 * v * (u ^ 2 - 1)) * ay
      exact ⟨_, ELink.newProyPoint_rep hrr, ELink.denotes_iff.2 ⟨_, _, _, _, rfl, hrr⟩⟩

/-- Doubling on `x² + y² = 1 + d x² y²`. -/
theorem double (h : Ed4OK p m) (A : eGroup p m.e0) :
    A.x ^ 2 + A.y ^ 2 ≠ 0 ∧ 2 - A.x ^ 2 - A.y ^ 2 ≠ 0 ∧ (A + A).x * (A.x ^ 2 + A.y ^ 2) = 2 * A.x * A.y ∧
      (A + A).y * (2 - A.x ^ 2 - A.y ^ 2) = A.y ^ 2 - A.x ^ 2 := by
  have hc := curve_eq h A
  have c1 := complete_add A A
  have c2 := complete_sub A A
  have e1 : 1 + val p m.e0.d * A.x * A.x * A.y * A.y = A.x ^ 2 + A.y ^ 2 := by linear_combination -hc
  have e2 : 1 - val p m.e0.d * A.x * A.x * A.y * A.y = 2 - A.x ^ 2 - A.y ^ 2 := by linear_combination hc
  rw [e1] at c1
  rw [e2] at c2
  refine ⟨c1, c2, ?_, ?_⟩
  · rw [add_x, e1]; field_simp; ring
  · rw [add_y, e2, div_mul_cancel₀ _ c2]; linear_combination -A.x ^ 2 * h.a_one

/-- Pulling back the image of a point gives four times the point. -/
theorem four (h : Ed4OK p m) (A : eGroup p m.e0) (B : (mGroup p m.e1).Point) (hB : Push448 A B) : Pull448 (4 • A) B := by
  have e4 : 4 • A = A + A + (A + A) := by rw [← two_nsmul, ← two_nsmul, ← mul_nsmul]
  rw [e4]
  obtain ⟨s1, s2, dx, dy⟩ := double h A
  obtain ⟨t1, t2, ex, ey⟩ := double h (A + A)
  generalize A + A = D at *
  obtain ⟨F, hF⟩ : ∃ F, F = D + D := ⟨_, rfl⟩
  rw [← hF] at ex ey ⊢
  have hc := curve_eq h A
  rcases B with _ | ⟨u, v, hn⟩
  · have hx : A.x = 0 := hB
    rw [hx] at dx dy s1 s2 hc
    have hy : A.y ^ 2 = 1 := by linear_combination hc
    have hDx : D.x = 0 := (mul_eq_zero.1 (show D.x * (0 ^ 2 + A.y ^ 2) = 0 by rw [dx]; ring)).resolve_right s1
    have hDy : D.y = 1 := by
      have : D.y * (2 - 0 ^ 2 - A.y ^ 2) = 1 * (2 - 0 ^ 2 - A.y ^ 2) := by rw [dy]; linear_combination 2 * hy
      exact mul_right_cancel₀ s2 this
    rw [hDx, hDy] at ex ey
    exact ⟨by linear_combination ex, by linear_combination ey⟩
  · obtain ⟨hx, hu, hv⟩ := hB
    have hcm := ((Mont.nonsingular_iff _ u v).1 hn).1
    by_cases hy : A.y = 0
    · left
      rw [hy] at hu hv dx dy s1 s2 hc
      have hx2 : A.x ^ 2 = 1 := by linear_combination hc
      have hDx : D.x = 0 := (mul_eq_zero.1 (show D.x * (A.x ^ 2 + 0 ^ 2) = 0 by rw [dx]; ring)).resolve_right s1
      have hDy : D.y = -1 := by
        have : D.y * (2 - A.x ^ 2 - 0 ^ 2) = -1 * (2 - A.x ^ 2 - 0 ^ 2) := by rw [dy]; linear_combination -2 * hx2
        exact mul_right_cancel₀ s2 this
      rw [hDx, hDy] at ex ey
      exact ⟨by rw [hu]; simp, by rw [hv]; simp, by linear_combination ex, by linear_combination ey⟩
    · right
      have hu0 : u ≠ 0 := by rw [hu]; positivity
      have d0 := den0_ne h hu0 hcm
      have d1 := den1_ne h hu0 hcm
      refine ⟨hu0, d0, d1, ?_, ?_⟩
      · rw [eq_div_iff d0]
        apply mul_right_cancel₀ t1
        rw [show F.x * (u ^ 4 - 2 * u ^ 2 + 4 * v ^ 2 + 1) * (D.x ^ 2 + D.y ^ 2) =
          F.x * (D.x ^ 2 + D.y ^ 2) * (u ^ 4 - 2 * u ^ 2 + 4 * v ^ 2 + 1) by ring, ex]
        have hDx : D.x = 2 * A.x * A.y / (A.x ^ 2 + A.y ^ 2) := by rw [eq_div_iff s1, dx]
        have hDy : D.y = (A.y ^ 2 - A.x ^ 2) / (2 - A.x ^ 2 - A.y ^ 2) := by rw [eq_div_iff s2, dy]
        rw [hDx, hDy, hu, hv]
        generalize hs : 2 - A.x ^ 2 - A.y ^ 2 = s at *
        generalize hr : A.x ^ 2 + A.y ^ 2 = r at *
        field_simp
        rw [← hr]
        ring
      · rw [eq_div_iff d1]
        apply mul_right_cancel₀ t2
        rw [show F.y * (u ^ 5 - 2 * u ^ 2 * v ^ 2 - 2 * u ^ 3 - 2 * v ^ 2 + u) * (2 - D.x ^ 2 - D.y ^ 2) =
          F.y * (2 - D.x ^ 2 - D.y ^ 2) * (u ^ 5 - 2 * u ^ 2 * v ^ 2 - 2 * u ^ 3 - 2 * v ^ 2 + u) by ring, ey]
        have hDx : D.x = 2 * A.x * A.y / (A.x ^ 2 + A.y ^ 2) := by rw [eq_div_iff s1, dx]
        have hDy : D.y = (A.y ^ 2 - A.x ^ 2) / (2 - A.x ^ 2 - A.y ^ 2) := by rw [eq_div_iff s2, dy]
        rw [hDx, hDy, hu, hv]
        generalize hs : 2 - A.x ^ 2 - A.y ^ 2 = s at *
        generalize hr : A.x ^ 2 + A.y ^ 2 = r at *
        field_simp
        rw [← hr]
        ring

theorem pull_degenerate (h : Ed4OK p m) {Q : Montgomery.Point} {hn} (hQ : MDenotes p m.e1 Q (.some 0 0 hn)) :
    m.pull Q = R.ok (ELink.pt m.e0 (0 : ZMod p) 0 0 0) := by
  obtain ⟨x, y, z, rfl, hz, rfl, rfl⟩ := MLink.denotes_iff.1 hQ
  rw [RLink.pull448_pt h, if_neg (fun hh => hz hh.2.2)]
  simp only [zero_mul, mul_zero, ne_eq, OfNat.ofNat_ne_zero, not_false_eq_true, zero_pow, sub_zero, add_zero, neg_zero]
  rw [ELink.newProyPoint_pt (ELink.ea he0.params) (ELink.ed he0.params), if_pos ⟨by ring, by ring⟩]

end

section
variable (p : ℕ) [Fact p.Prime] (m : Ed4isoMt448) [he0 : ECurve p m.e0]

/-! ## C48 -/

/-- C48, `push`: for every point and every representative, `push` does not panic and returns a representative of the image under
the 4-isogeny of RFC 7748. -/
theorem _root_.Redox.Props.C48_push (h : Ed4OK p m) (P : Edwards.Point) (A : eGroup p m.e0) (hP : EDenotes p m.e0 P A) :
    ∃ B, Push448 A B ∧ MReturns p m.e1 (m.push P) B := by
  obtain ⟨B, hB⟩ := push448_exists h A
  exact ⟨B, hB, push_denotes h hP hB⟩

/-- C48, `pull`: for every point other than `(0, 0)` and every representative, `pull` does not panic and returns a representative
of the image under the dual 4-isogeny of RFC 7748. Partial: for `(0, 0)` see `C48_refuted_pull`. -/
theorem _root_.Redox.Props.C48_pull_partial (h : Ed4OK p m) (Q : Montgomery.Point) (B : (mGroup p m.e1).Point)
    (hQ : MDenotes p m.e1 Q B) (h0 : ∀ hn, B ≠ .some 0 0 hn) :
    ∃ A, Pull448 A B ∧ EReturns p m.e0 (m.pull Q) A := by
  obtain ⟨A, hA⟩ := pull448_exists h B
  exact ⟨A, hA, pull_denotes h hQ hA h0⟩

/-- C48: `push` and `pull` never panic on a point of their domain, and what they return passes `is_on_curve`. -/
theorem _root_.Redox.Props.C48_no_panic (h : Ed4OK p m) :
    (∀ P A, EDenotes p m.e0 P A → ∃ Q, m.push P = R.ok Q ∧ m.e1.isOnCurve Q = R.ok true) ∧
    (∀ Q B, MDenotes p m.e1 Q B → ∃ P, m.pull Q = R.ok P ∧ m.e0.isOnCurve P = R.ok true) := by
  refine ⟨fun P A hP => ?_, fun Q B hQ => ?_⟩
  · obtain ⟨B, -, Q, hQ, hd⟩ := C48_push p m h P A hP
    refine ⟨Q, hQ, ?_⟩
    obtain ⟨x, y, z, rfl, hr⟩ := MLink.denotes_iff.1 hd
    rw [MLink.isOnCurve_pt (MLink.ea h.e1) (MLink.eb h.e1), decide_eq_true (by
      rw [h.b_one]; exact MLink.Rep.onCurve hr)]
  · by_cases h0 : ∀ hn, B ≠ .some 0 0 hn
    · obtain ⟨A, -, P, hP, hd⟩ := C48_pull_partial p m h Q B hQ h0
      refine ⟨P, hP, ?_⟩
      obtain ⟨x, y, t, z, rfl, hr⟩ := ELink.denotes_iff.1 hd
      rw [ELink.isOnCurve_pt (ELink.ea he0.params) (ELink.ed he0.params), decide_eq_true hr.onCurve]
    · push Not at h0
      obtain ⟨hn, rfl⟩ := h0
      refine ⟨_, pull_degenerate h hQ, ?_⟩
      rw [ELink.isOnCurve_pt (ELink.ea he0.params) (ELink.ed he0.params), decide_eq_true ⟨by ring, by ring⟩]

/-- C48: `pull(push(P))` is four times `P`, unless the `y`-coordinate of `P` is zero. -/
theorem _root_.Redox.Props.C48_four_partial (h : Ed4OK p m) (P : Edwards.Point) (A : eGroup p m.e0) (hP : EDenotes p m.e0 P A)
    (hy : A.y ≠ 0) : EReturns p m.e0 (do m.pull (← m.push P)) (4 • A) := by
  obtain ⟨B, hB, Q, hQ, hd⟩ := C48_push p m h P A hP
  rw [hQ, R.ok_bind]
  refine pull_denotes h hd (four h A B hB) ?_
  rintro hn rfl
  obtain ⟨hx, hu, -⟩ := hB
  have : A.y ^ 2 / A.x ^ 2 ≠ 0 := by positivity
  exact this hu.symm

/-- C48, observable through the API: `pull(push(P)) == P + P + P + P`, for every point and every representative. -/
theorem _root_.Redox.Props.C48_four_api (h : Ed4OK p m) (P : Edwards.Point) (A : eGroup p m.e0) (hP : EDenotes p m.e0 P A) :
    (do (← m.pull (← m.push P)).eq (← (← P.add P).add (← P.add P))) = R.ok true := by
  obtain ⟨D, hD, hDd⟩ := (C36_group_law p m.e0 P P A A hP hP).1
  obtain ⟨F, hF, hFd⟩ := (C36_group_law p m.e0 D D _ _ hDd hDd).1
  obtain ⟨B, hB, Q, hQ, hQd⟩ := C48_push p m h P A hP
  by_cases hy : A.y = 0
  · rcases B with _ | ⟨u, v, hn⟩
    · have h1 := curve_eq h A
      rw [hy, show A.x = 0 from hB] at h1
      simp at h1
    · obtain ⟨-, hu, hv⟩ := hB
      obtain rfl : u = 0 := by rw [hu, hy]; simp
      obtain rfl : v = 0 := by rw [hv, hy]; simp
      obtain ⟨x, y, t, z, rfl, -⟩ := ELink.denotes_iff.1 hFd
      rw [hQ, R.ok_bind, pull_degenerate h hQd, R.ok_bind, hD, R.ok_bind, R.ok_bind, hF, R.ok_bind, ELink.eq_pt]
      simp
  · obtain ⟨S, hS, hSd⟩ := C48_four_partial p m h P A hP hy
    rw [hQ, R.ok_bind] at hS
    rw [hQ, R.ok_bind, hS, R.ok_bind, hD, R.ok_bind, R.ok_bind, hF, R.ok_bind, ELink.eq_of_denotes _ _ _ _ hSd hFd,
      decide_eq_true]
    rw [← two_nsmul, ← two_nsmul, ← mul_nsmul]

/-- C48 is refuted at `(0, 0)`: every representative is pulled to the quadruple `(0 : 0 : 0 : 0)`, which stands for no point of the
curve and is `==` to every point of it. -/
theorem _root_.Redox.Props.C48_refuted_pull (h : Ed4OK p m) (Q : Montgomery.Point) (hn) (hQ : MDenotes p m.e1 Q (.some 0 0 hn)) :
    ∃ P, m.pull Q = R.ok P ∧ P.c.x.isZero ∧ P.c.y.isZero ∧ P.c.t.isZero ∧ P.c.z.isZero ∧
      (¬ ∃ A, EDenotes p m.e0 P A) ∧ ∀ S A, EDenotes p m.e0 S A → P.eq S = R.ok true := by
  refine ⟨_, pull_degenerate h hQ, by simp [ELink.pt], by simp [ELink.pt], by simp [ELink.pt], by simp [ELink.pt], ?_, ?_⟩
  · rintro ⟨A, hA⟩
    have := hA.2.2.2.2.2.1
    simp [ELink.pt] at this
  · intro S A hS
    obtain ⟨x, y, t, z, rfl, -⟩ := ELink.denotes_iff.1 hS
    rw [ELink.eq_pt]
    simp

end

/-! ## The library's map -/

open Inst

/-- The value of `edwards448_to_curve448()`. -/
def map448 : Ed4isoMt448 := ⟨edwards448, curve448⟩

theorem map448_eq : edwards448_to_curve448 = R.ok map448 := by
  rw [edwards448_to_curve448, edwards448_eq, curve448_eq]; rfl

instance map448_e0 : ECurve curve448_p map448.e0 := edwards448_valid.curve

theorem map448_ok : Ed4OK curve448_p map448 := by
  refine ⟨curve448_valid.curve, curve448_valid.b_one, ?_, ?_, ?_⟩
  · simp [Spec.val, map448, edwards448]
  · unfold Spec.val
    norm_cast
  · have := NoRoot.not_isSquare_of_pow (p := curve448_p) (156326 ^ 2 - 4) (by decide +kernel) (by decide +kernel)
    have e : Spec.val curve448_p map448.e1.a ^ 2 - 4 = ((156326 ^ 2 - 4 : ℕ) : ZMod curve448_p) := by
      unfold Spec.val
      norm_cast
    rw [e]; exact this

/-- C48 for the map of the library: `edwards448_to_curve448()` succeeds, its curves are `EDWARDS448` and `CURVE448`, and it
satisfies the hypotheses of the theorems above. -/
theorem _root_.Redox.Props.C48_edwards448 : ∃ m, edwards448_to_curve448 = R.ok m ∧
    EDWARDS448 = R.ok m.e0 ∧ CURVE448 = R.ok m.e1 ∧ Ed4OK curve448_p m ∧ ECurve curve448_p m.e0 ∧
    ∀ P A, EDenotes curve448_p m.e0 P A → (do (← m.pull (← m.push P)).eq (← (← P.add P).add (← P.add P))) = R.ok true :=
  ⟨map448, map448_eq, edwards448_eq, curve448_eq, map448_ok, map448_e0, C48_four_api curve448_p map448 map448_ok⟩

/-- The exceptional point is reached from a point of order four of the library's curve: `pull(push((1, 0)))` is the quadruple
`(0 : 0 : 0 : 0)`. -/
example : (do
      let P ← map448.e0.newPoint ⟨1, ⟨curve448_p⟩⟩ ⟨0, ⟨curve448_p⟩⟩
      let S ← map448.pull (← map448.push P)
      return S.c.z.isZero) = R.ok true := by decide +kernel

/-- The ordinary case: `push` of the generator is a point of the curve with nonzero coordinates. -/
example : (do
      let Q ← map448.push (← map448.e0.getGenerator)
      return !Q.c.x.isZero && !Q.c.y.isZero && !Q.c.z.isZero) = R.ok true := by decide +kernel

end Redox.Props.Iso4
