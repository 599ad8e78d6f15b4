import Verif.Proofs.FpLink
import Verif.Proofs.BitsLink
import Verif.Spec.Weierstrass
import Verif.Math.RCB

/-! # Weierstrass points in terms of `ZMod p` -/

set_option linter.unusedSectionVars false

namespace Redox.WLink

open Spec Weierstrass RCB

section exec
variable {p : ℕ} [NeZero p] {e : Curve} {a b : ZMod p}

/-- The point with the given coordinates. -/
def pt (e : Curve) (x y z : ZMod p) : Point := ⟨e, ⟨el x, el y, el z⟩⟩

theorem isOnCurve_pt (ha : e.a = el a) (hb : e.b = el b) (e' : Curve) (x y z : ZMod p) :
    e.isOnCurve (pt e' x y z) = R.ok (decide (x ^ 3 + z * (z * (a * x + b * z) - y ^ 2) = 0)) := by
  simp [Curve.isOnCurve, pt, ha, hb]
  ring_nf

theorem newProyPoint_pt (ha : e.a = el a) (hb : e.b = el b) (x y z : ZMod p) :
    e.newProyPoint ⟨el x, el y, el z⟩ =
      if x ^ 3 + z * (z * (a * x + b * z) - y ^ 2) = 0 then R.ok (pt e x y z) else R.panic .notValidPoint := by
  have := isOnCurve_pt ha hb e x y z
  simp only [pt] at this
  simp only [Curve.newProyPoint, this, R.ok_bind, doIfEq, decide_eq_true_eq, pt]

theorem coreAddCoords_pt (ha : e.a = el a) (hb : e.b = el b) (e' : Curve) (x1 y1 z1 x2 y2 z2 : ZMod p) :
    (pt e x1 y1 z1).coreAddCoords (pt e' x2 y2 z2) =
      R.ok ⟨el (X3 a b x1 y1 z1 x2 y2 z2), el (Y3 a b x1 y1 z1 x2 y2 z2), el (Z3 a b x1 y1 z1 x2 y2 z2)⟩ := by
  unfold Point.coreAddCoords
  simp only [pt, ha, hb]
  rw [R.fadd_ok (el b), add_el]
  fp_steps
  simp only [X3, Y3, Z3, R.pure_eq, R.ok.injEq, ProyCoordinates.mk.injEq, el_inj]
  subst_vars
  refine ⟨by ring, by ring, by ring⟩

theorem coreDoublingCoords_pt (ha : e.a = el a) (hb : e.b = el b) (x y z : ZMod p)
    (hon : x ^ 3 + z * (z * (a * x + b * z) - y ^ 2) = 0) :
    (pt e x y z).coreDoublingCoords =
      R.ok ⟨el (X3 a b x y z x y z), el (Y3 a b x y z x y z), el (Z3 a b x y z x y z)⟩ := by
  unfold Point.coreDoublingCoords
  simp only [pt, ha, hb]
  rw [R.fadd_ok (el b), add_el]
  fp_steps
  simp only [X3, Y3, Z3, R.pure_eq, R.ok.injEq, ProyCoordinates.mk.injEq, el_inj]
  subst_vars
  refine ⟨by ring, by ring, by linear_combination (-6 * y) * hon⟩

theorem eq_pt (e e' : Curve) (x1 y1 z1 x2 y2 z2 : ZMod p) :
    (pt e x1 y1 z1).eq (pt e' x2 y2 z2) = R.ok (decide (e = e' ∧ x1 * z2 = z1 * x2 ∧ y1 * z2 = z1 * y2)) := by
  simp [Point.eq, pt, Bool.and_assoc, Bool.beq_eq_decide_eq]

theorem isZero_pt (e : Curve) (x y z : ZMod p) : (pt e x y z).isZero = decide (x = 0 ∧ y ≠ 0 ∧ z = 0) := by
  simp [Point.isZero, pt, Bool.and_assoc]

theorem pt_inj {e e' : Curve} {x y z x' y' z' : ZMod p} :
    pt e x y z = pt e' x' y' z' ↔ e = e' ∧ x = x' ∧ y = y' ∧ z = z' := by
  simp [pt]

end exec

section denotes
variable {p : ℕ} [Fact p.Prime] {e : Curve}

theorem denotes_iff {P : Point} {A : (wGroup p e).Point} :
    WDenotes p e P A ↔ ∃ x y z : ZMod p, P = pt e x y z ∧ Rep A x y z := by
  constructor
  · rintro ⟨he, hx, hy, hz, h⟩
    obtain ⟨e', ⟨x, y, z⟩⟩ := P
    simp only at he hx hy hz h
    subst he
    refine ⟨val p x, val p y, val p z, ?_, ?_⟩
    · simp only [pt, ← hx.eq_el, ← hy.eq_el, ← hz.eq_el]
    · cases A <;> exact h
  · rintro ⟨x, y, z, rfl, h⟩
    refine ⟨rfl, canon_el x, canon_el y, canon_el z, ?_⟩
    cases A <;> (simp only [pt, val_el]; exact h)

theorem returns_iff' {r : R Point} {A : (wGroup p e).Point} :
    WReturns p e r A ↔ ∃ x y z : ZMod p, r = R.ok (pt e x y z) ∧ Rep A x y z := by
  constructor
  · rintro ⟨S, rfl, h⟩
    obtain ⟨x, y, z, rfl, h'⟩ := denotes_iff.1 h
    exact ⟨x, y, z, rfl, h'⟩
  · rintro ⟨x, y, z, rfl, h⟩
    exact ⟨_, rfl, denotes_iff.2 ⟨x, y, z, rfl, h⟩⟩

theorem Rep.onCurve {a b : ZMod p} {A : (W a b).Point} {x y z : ZMod p} (h : Rep A x y z) :
    x ^ 3 + z * (z * (a * x + b * z) - y ^ 2) = 0 := by
  rcases A with _ | ⟨u, v, hn⟩
  · obtain ⟨rfl, _, rfl⟩ := h; ring
  · obtain ⟨hz, rfl, rfl⟩ := h
    have := ((nonsingular_iff a b u v).1 hn).1
    linear_combination (-z ^ 3) * this

theorem two_ne_zero' (h2 : p ≠ 2) : (2 : ZMod p) ≠ 0 := by
  have hp := (Fact.out : p.Prime)
  intro h
  have : (p : ℕ) ∣ 2 := (ZMod.natCast_eq_zero_iff 2 p).1 (by exact_mod_cast h)
  have := Nat.le_of_dvd (by norm_num) this
  have := hp.two_le
  omega

/-- Every nonzero solution of the homogeneous equation represents a point. -/
theorem exists_rep {a b : ZMod p} (h2 : p ≠ 2) (hns : 4 * a ^ 3 + 27 * b ^ 2 ≠ 0) {x y z : ZMod p}
    (h : x ^ 3 + z * (z * (a * x + b * z) - y ^ 2) = 0) (h0 : y ≠ 0 ∨ z ≠ 0) :
    ∃ A : (W a b).Point, Rep A x y z := by
  by_cases hz : z = 0
  · subst hz
    have hx : x = 0 := by simpa using h
    exact ⟨0, hx, by simpa using h0, rfl⟩
  · have hd := two_ne_zero' h2
    have hn : (W a b).Nonsingular (x / z) (y / z) := by
      apply (WeierstrassCurve.Affine.equation_iff_nonsingular_of_Δ_ne_zero _).1
      · rw [RCB.equation_iff]; field_simp; linear_combination -h
      · simp only [W, WeierstrassCurve.Δ, WeierstrassCurve.b₂, WeierstrassCurve.b₄, WeierstrassCurve.b₆,
          WeierstrassCurve.b₈]
        have : (2 : ZMod p) ^ 4 * (4 * a ^ 3 + 27 * b ^ 2) ≠ 0 := mul_ne_zero (pow_ne_zero _ hd) hns
        intro hh; apply this; linear_combination -hh
    exact ⟨.some _ _ hn, hz, by field_simp, by field_simp⟩

theorem Rep.neg {a b : ZMod p} {A : (W a b).Point} {x y z : ZMod p} (h : Rep A x y z) : Rep (-A) x (-y) z := by
  rcases A with _ | ⟨u, v, hn⟩
  · obtain ⟨rfl, hy, rfl⟩ := h
    exact ⟨rfl, neg_ne_zero.2 hy, rfl⟩
  · obtain ⟨hz, rfl, rfl⟩ := h
    rw [WeierstrassCurve.Affine.Point.neg_some, rep_some]
    exact ⟨hz, rfl, by simp [WeierstrassCurve.Affine.negY]⟩

/-- Two representatives denote the same point exactly when the cross products agree. -/
theorem Rep.eq_iff {a b : ZMod p} {A B : (W a b).Point} {x1 y1 z1 x2 y2 z2 : ZMod p}
    (hA : Rep A x1 y1 z1) (hB : Rep B x2 y2 z2) : (x1 * z2 = z1 * x2 ∧ y1 * z2 = z1 * y2) ↔ A = B := by
  rcases A with _ | ⟨u, v, hn⟩ <;> rcases B with _ | ⟨u', v', hn'⟩
  · obtain ⟨rfl, hy, rfl⟩ := hA
    obtain ⟨rfl, hy', rfl⟩ := hB
    simp
  · obtain ⟨rfl, hy, rfl⟩ := hA
    obtain ⟨hz, rfl, rfl⟩ := hB
    simp [hy, hz]
  · obtain ⟨rfl, hy, rfl⟩ := hB
    obtain ⟨hz, rfl, rfl⟩ := hA
    simp [hy, hz]
  · obtain ⟨hz, rfl, rfl⟩ := hA
    obtain ⟨hz', rfl, rfl⟩ := hB
    rw [WeierstrassCurve.Affine.Point.some.injEq]
    constructor
    · rintro ⟨h1, h2⟩
      exact ⟨mul_right_cancel₀ (mul_ne_zero hz hz') (by linear_combination h1),
        mul_right_cancel₀ (mul_ne_zero hz hz') (by linear_combination h2)⟩
    · rintro ⟨rfl, rfl⟩
      exact ⟨by ring, by ring⟩

theorem exists_representative {a b : ZMod p} (A : (W a b).Point) : ∃ x y z, Rep A x y z := by
  rcases A with _ | ⟨u, v, hn⟩
  · exact ⟨0, 1, 0, rfl, one_ne_zero, rfl⟩
  · exact ⟨u, v, 1, one_ne_zero, by ring, by ring⟩

end denotes

section ops
variable {p : ℕ} [Fact p.Prime] {e : Curve} (he : WCurve p e)
include he

theorem ea : e.a = el (val p e.a) := he.canon_a.eq_el
theorem eb : e.b = el (val p e.b) := he.canon_b.eq_el

theorem newProyPoint_rep {A : (wGroup p e).Point} {x y z : ZMod p} (h : Rep A x y z) :
    e.newProyPoint ⟨el x, el y, el z⟩ = R.ok (pt e x y z) := by
  rw [newProyPoint_pt (ea he) (eb he), if_pos (Rep.onCurve h)]

theorem identity_pt : e.identity = R.ok (pt e (0 : ZMod p) 1 0) := by
  have h0 : Rep (0 : (wGroup p e).Point) 0 1 0 := ⟨rfl, one_ne_zero, rfl⟩
  simp only [Curve.identity, he.field, zero_eq, one_eq, R.ok_bind, newProyPoint_rep he h0]

theorem neg_pt {A : (wGroup p e).Point} {x y z : ZMod p} (h : Rep A x y z) :
    (pt e x y z).neg = R.ok (pt e x (-y) z) := by
  have := newProyPoint_rep he (Rep.neg h)
  simp only [Point.neg, pt, neg_el, R.ok_bind, this]

theorem add_pt {A B : (wGroup p e).Point} {x1 y1 z1 x2 y2 z2 : ZMod p} (hA : Rep A x1 y1 z1) (hB : Rep B x2 y2 z2)
    (hno : ¬ OrderTwo (A - B)) :
    WReturns p e ((pt e x1 y1 z1).add (pt e x2 y2 z2)) (A + B) := by
  have h := (add_cases (two_ne_zero' he.odd) A B hA hB).1 hno
  have hb : ((pt e x1 y1 z1).e == (pt e x2 y2 z2).e) = true := by simp [pt]
  refine ⟨_, ?_, denotes_iff.2 ⟨_, _, _, rfl, h⟩⟩
  rw [Point.add, hb, doIfEq_true, Point.coreAdd, coreAddCoords_pt (ea he) (eb he), R.ok_bind]
  exact newProyPoint_rep he h

theorem add_pt_orderTwo {A B : (wGroup p e).Point} {x1 y1 z1 x2 y2 z2 : ZMod p} (hA : Rep A x1 y1 z1)
    (hB : Rep B x2 y2 z2) (ho : OrderTwo (A - B)) :
    (pt e x1 y1 z1).add (pt e x2 y2 z2) = R.ok (pt e (0 : ZMod p) 0 0) := by
  obtain ⟨hx, hy, hz⟩ := (add_cases (two_ne_zero' he.odd) A B hA hB).2 ho
  have hb : ((pt e x1 y1 z1).e == (pt e x2 y2 z2).e) = true := by simp [pt]
  rw [Point.add, hb, doIfEq_true, Point.coreAdd, coreAddCoords_pt (ea he) (eb he), R.ok_bind, hx, hy, hz]
  change e.newProyPoint _ = _
  rw [newProyPoint_pt (ea he) (eb he), if_pos (by ring)]

theorem double_pt {A : (wGroup p e).Point} {x y z : ZMod p} (hA : Rep A x y z) :
    WReturns p e (pt e x y z).coreDoubling (A + A) := by
  have h := (add_cases (two_ne_zero' he.odd) A A hA hA).1 (by rw [sub_self]; exact not_orderTwo_zero)
  refine ⟨_, ?_, denotes_iff.2 ⟨_, _, _, rfl, h⟩⟩
  rw [Point.coreDoubling, coreDoublingCoords_pt (ea he) (eb he) _ _ _ (Rep.onCurve hA), R.ok_bind]
  exact newProyPoint_rep he h

/-- The loop of `core_mul`, for a point none of whose multiples has order two. -/
theorem mulLoop_pt {A : (wGroup p e).Point} {P : Point} (hP : WDenotes p e P A)
    (hno : ∀ n : ℤ, ¬ OrderTwo (n • A)) : ∀ (bits : List Bool) (m : ℕ) (Q : Point), WDenotes p e Q (m • A) →
    WReturns p e (P.mulLoop bits Q) (bits.foldl (fun acc b => 2 * acc + b.toNat) m • A) := by
  intro bits
  induction bits with
  | nil => intro m Q hQ; exact ⟨Q, rfl, hQ⟩
  | cons k bits ih =>
    intro m Q hQ
    obtain ⟨x, y, z, rfl, hr⟩ := denotes_iff.1 hQ
    obtain ⟨D, hD, hDd⟩ := double_pt he hr
    rw [← two_nsmul, ← mul_nsmul'] at hDd
    simp only [Point.mulLoop, hD, R.ok_bind, List.foldl_cons]
    cases k with
    | false => simpa using ih _ D hDd
    | true =>
      obtain ⟨x', y', z', rfl, hr'⟩ := denotes_iff.1 hDd
      obtain ⟨xp, yp, zp, rfl, hrp⟩ := denotes_iff.1 hP
      obtain ⟨S, hS, hSd⟩ := add_pt he hr' hrp (by
        have := hno ((2 * m : ℕ) - 1)
        rwa [sub_smul, one_smul, natCast_zsmul] at this)
      simp only [if_true, hS, R.ok_bind, Bool.toNat_true]
      apply ih
      rwa [add_smul, one_smul]

end ops
end Redox.WLink
