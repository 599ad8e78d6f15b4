import Verif.Proofs.FpLink
import Verif.Proofs.BitsLink
import Verif.Spec.Montgomery
import Verif.Math.MontAdd

/-! # Montgomery points in terms of `ZMod p` -/

set_option linter.unusedSectionVars false

namespace Redox.MLink

open Spec Montgomery Mont

section exec
variable {p : ℕ} [NeZero p] {e : Curve} {a b s : ZMod p}

/-- The point with the given coordinates. -/
def pt (e : Curve) (x y z : ZMod p) : Point := ⟨e, ⟨el x, el y, el z⟩⟩

theorem isOnCurve_pt (ha : e.a = el a) (hb : e.b = el b) (e' : Curve) (x y z : ZMod p) :
    e.isOnCurve (pt e' x y z) = R.ok (decide (b * y ^ 2 * z = x * (x ^ 2 + a * x * z + z ^ 2))) := by
  simp [Curve.isOnCurve, pt, ha, hb, sub_eq_zero]
  ring_nf

theorem newProyPoint_pt (ha : e.a = el a) (hb : e.b = el b) (x y z : ZMod p) :
    e.newProyPoint ⟨el x, el y, el z⟩ =
      if b * y ^ 2 * z = x * (x ^ 2 + a * x * z + z ^ 2) then R.ok (pt e x y z) else R.panic .notValidPoint := by
  have := isOnCurve_pt ha hb e x y z
  simp only [pt] at this
  simp only [Curve.newProyPoint, this, R.ok_bind, doIfEq, decide_eq_true_eq, pt]

theorem coreAddCoords_pt (ha : e.a = el a) (hs : e.s = el s) (e' : Curve) (x1 y1 z1 x2 y2 z2 : ZMod p) :
    (pt e x1 y1 z1).coreAddCoords (pt e' x2 y2 z2) =
      R.ok ⟨el (X3 a s x1 y1 z1 x2 y2 z2), el (Y3 a s x1 y1 z1 x2 y2 z2), el (Z3 a s x1 y1 z1 x2 y2 z2)⟩ := by
  unfold Point.coreAddCoords
  simp only [pt, ha, hs]
  fp_nested
  simp only [X3, Y3, Z3, rr, tt, vv, ss, uu, ww, R.pure_eq, R.ok.injEq, ProyCoordinates.mk.injEq, el_inj]
  subst_vars
  refine ⟨by ring, by ring, by ring⟩

theorem eq_pt (e e' : Curve) (x1 y1 z1 x2 y2 z2 : ZMod p) :
    (pt e x1 y1 z1).eq (pt e' x2 y2 z2) = R.ok (decide (e = e' ∧ x1 * z2 = z1 * x2 ∧ y1 * z2 = z1 * y2)) := by
  simp [Point.eq, pt, Bool.and_assoc, Bool.beq_eq_decide_eq]

theorem isZero_pt (e : Curve) (x y z : ZMod p) : (pt e x y z).isZero = decide (x = 0 ∧ y ≠ 0 ∧ z = 0) := by
  simp [Point.isZero, pt, Bool.and_assoc]

theorem pt_inj {e e' : Curve} {x y z x' y' z' : ZMod p} :
    pt e x y z = pt e' x' y' z' ↔ e = e' ∧ x = x' ∧ y = y' ∧ z = z' := by
  simp [pt]

end exec

section denotes
variable {p : ℕ} [Fact p.Prime] {e : Curve}

theorem denotes_iff {P : Point} {A : (mGroup p e).Point} :
    MDenotes p e P A ↔ ∃ x y z : ZMod p, P = pt e x y z ∧ Rep A x y z := by
  constructor
  · rintro ⟨he, hx, hy, hz, h⟩
    obtain ⟨e', ⟨x, y, z⟩⟩ := P
    simp only at he hx hy hz h
    subst he
    refine ⟨val p x, val p y, val p z, ?_, ?_⟩
    · simp only [pt, ← hx.eq_el, ← hy.eq_el, ← hz.eq_el]
    · cases A <;> exact h
  · rintro ⟨x, y, z, rfl, h⟩
    refine ⟨rfl, canon_el x, canon_el y, canon_el z, ?_⟩
    cases A <;> (simp only [pt, val_el]; exact h)

theorem Rep.onCurve {a : ZMod p} {A : (M a).Point} {x y z : ZMod p} (h : Rep A x y z) :
    1 * y ^ 2 * z = x * (x ^ 2 + a * x * z + z ^ 2) := by
  rcases A with _ | ⟨u, v, hn⟩
  · obtain ⟨rfl, _, rfl⟩ := h; ring
  · obtain ⟨hz, rfl, rfl⟩ := h
    have := ((nonsingular_iff a u v).1 hn).1
    linear_combination (z ^ 3) * this

theorem two_ne_zero' (h2 : p ≠ 2) : (2 : ZMod p) ≠ 0 := by
  have hp := (Fact.out : p.Prime)
  intro h
  have : (p : ℕ) ∣ 2 := (ZMod.natCast_eq_zero_iff 2 p).1 (by exact_mod_cast h)
  have := Nat.le_of_dvd (by norm_num) this
  have := hp.two_le
  omega

/-- Every nonzero solution of the homogeneous equation represents a point. -/
theorem exists_rep {a : ZMod p} (h2 : p ≠ 2) (hns : a ^ 2 - 4 ≠ 0) {x y z : ZMod p}
    (h : 1 * y ^ 2 * z = x * (x ^ 2 + a * x * z + z ^ 2)) (h0 : y ≠ 0 ∨ z ≠ 0) :
    ∃ A : (M a).Point, Rep A x y z := by
  by_cases hz : z = 0
  · subst hz
    have hx : x = 0 := by
      have : x ^ 3 = 0 := by linear_combination -h
      simpa using this
    exact ⟨0, hx, by simpa using h0, rfl⟩
  · have hd := two_ne_zero' h2
    have hn : (M a).Nonsingular (x / z) (y / z) := by
      apply (WeierstrassCurve.Affine.equation_iff_nonsingular_of_Δ_ne_zero _).1
      · rw [Mont.equation_iff]; field_simp; linear_combination h
      · simp only [M, WeierstrassCurve.Δ, WeierstrassCurve.b₂, WeierstrassCurve.b₄, WeierstrassCurve.b₆,
          WeierstrassCurve.b₈]
        have : (2 : ZMod p) ^ 4 * (a ^ 2 - 4) ≠ 0 := mul_ne_zero (pow_ne_zero _ hd) hns
        intro hh; apply this; linear_combination hh
    exact ⟨.some _ _ hn, hz, by field_simp, by field_simp⟩

theorem Rep.neg {a : ZMod p} {A : (M a).Point} {x y z : ZMod p} (h : Rep A x y z) : Rep (-A) x (-y) z := by
  rcases A with _ | ⟨u, v, hn⟩
  · obtain ⟨rfl, hy, rfl⟩ := h
    exact ⟨rfl, neg_ne_zero.2 hy, rfl⟩
  · obtain ⟨hz, rfl, rfl⟩ := h
    rw [WeierstrassCurve.Affine.Point.neg_some, rep_some]
    exact ⟨hz, rfl, by simp [WeierstrassCurve.Affine.negY]⟩

/-- Two representatives denote the same point exactly when the cross products agree. -/
theorem Rep.eq_iff {a : ZMod p} {A B : (M a).Point} {x1 y1 z1 x2 y2 z2 : ZMod p}
    (hA : Rep A x1 y1 z1) (hB : Rep B x2 y2 z2) : (x1 * z2 = z1 * x2 ∧ y1 * z2 = z1 * y2) ↔ A = B := by
  rcases A with _ | ⟨u, v, hn⟩ <;> rcases B with _ | ⟨u', v', hn'⟩
  · obtain ⟨rfl, hy, rfl⟩ := hA
    obtain ⟨rfl, hy', rfl⟩ := hB
    simp
  · obtain ⟨rfl, hy, rfl⟩ := hA
    obtain ⟨hz, rfl, rfl⟩ := hB
    simp [hy, hz]
  · obtain ⟨rfl, hy, rfl⟩ := hB
    obtain ⟨hz, rfl, rfl⟩ := hA
    simp [hy, hz]
  · obtain ⟨hz, rfl, rfl⟩ := hA
    obtain ⟨hz', rfl, rfl⟩ := hB
    rw [WeierstrassCurve.Affine.Point.some.injEq]
    constructor
    · rintro ⟨h1, h2⟩
      exact ⟨mul_right_cancel₀ (mul_ne_zero hz hz') (by linear_combination h1),
        mul_right_cancel₀ (mul_ne_zero hz hz') (by linear_combination h2)⟩
    · rintro ⟨rfl, rfl⟩
      exact ⟨by ring, by ring⟩

theorem exists_representative {a : ZMod p} (A : (M a).Point) : ∃ x y z, Rep A x y z := by
  rcases A with _ | ⟨u, v, hn⟩
  · exact ⟨0, 1, 0, rfl, one_ne_zero, rfl⟩
  · exact ⟨u, v, 1, one_ne_zero, by ring, by ring⟩

end denotes

section ops
variable {p : ℕ} [Fact p.Prime] {e : Curve} (he : MCurve p e)
include he

theorem ea : e.a = el (val p e.a) := he.canon_a.eq_el
theorem eb : e.b = el (val p e.b) := he.canon_b.eq_el
theorem es : e.s = el (val p e.s) := he.canon_s.eq_el
theorem eb_ne : val p e.b ≠ 0 := fun h => he.nonsingular (by rw [h, zero_mul])
theorem ea_ne : val p e.a ^ 2 - 4 ≠ 0 := fun h => he.nonsingular (by rw [h, mul_zero])

theorem identity_pt : e.identity = R.ok (pt e (0 : ZMod p) 1 0) := by
  simp only [Curve.identity, he.field, zero_eq, one_eq, R.ok_bind]
  rw [newProyPoint_pt (ea he) (eb he), if_pos (by ring)]

variable (hb : val p e.b = 1)
include hb

theorem newProyPoint_rep {A : (mGroup p e).Point} {x y z : ZMod p} (h : Rep A x y z) :
    e.newProyPoint ⟨el x, el y, el z⟩ = R.ok (pt e x y z) := by
  rw [newProyPoint_pt (ea he) (eb he), if_pos (by rw [hb]; exact Rep.onCurve h)]

theorem neg_pt {A : (mGroup p e).Point} {x y z : ZMod p} (h : Rep A x y z) :
    (pt e x y z).neg = R.ok (pt e x (-y) z) := by
  have := newProyPoint_rep he hb (Rep.neg h)
  simp only [Point.neg, pt, neg_el, R.ok_bind, this]

theorem add_pt {A B : (mGroup p e).Point} {x1 y1 z1 x2 y2 z2 : ZMod p} (hA : Rep A x1 y1 z1) (hB : Rep B x2 y2 z2)
    (hno : ¬ HasY (val p e.s) (A - B)) :
    MReturns p e ((pt e x1 y1 z1).add (pt e x2 y2 z2)) (A + B) := by
  have h := (add_cases (val p e.s) (two_ne_zero' he.odd) A B hA hB).1 hno
  have hb' : ((pt e x1 y1 z1).e == (pt e x2 y2 z2).e) = true := by simp [pt]
  refine ⟨_, ?_, denotes_iff.2 ⟨_, _, _, rfl, h⟩⟩
  rw [Point.add, hb', doIfEq_true, Point.coreAdd, coreAddCoords_pt (ea he) (es he), R.ok_bind]
  exact newProyPoint_rep he hb h

theorem add_pt_exceptional {A B : (mGroup p e).Point} {x1 y1 z1 x2 y2 z2 : ZMod p} (hA : Rep A x1 y1 z1)
    (hB : Rep B x2 y2 z2) (ho : HasY (val p e.s) (A - B)) :
    (pt e x1 y1 z1).add (pt e x2 y2 z2) = R.ok (pt e (0 : ZMod p) 0 0) := by
  obtain ⟨hx, hy, hz⟩ := (add_cases (val p e.s) (two_ne_zero' he.odd) A B hA hB).2 ho
  have hb' : ((pt e x1 y1 z1).e == (pt e x2 y2 z2).e) = true := by simp [pt]
  rw [Point.add, hb', doIfEq_true, Point.coreAdd, coreAddCoords_pt (ea he) (es he), R.ok_bind, hx, hy, hz]
  change e.newProyPoint _ = _
  rw [newProyPoint_pt (ea he) (eb he), if_pos (by ring)]

/-- The loop of `core_mul`, for a point none of whose multiples has `y`-coordinate `s`. -/
theorem mulLoop_pt {A : (mGroup p e).Point} {P : Point} (hP : MDenotes p e P A)
    (hno : ∀ n : ℤ, ¬ HasY (val p e.s) (n • A)) : ∀ (bits : List Bool) (m : ℕ) (Q : Point), MDenotes p e Q (m • A) →
    MReturns p e (P.mulLoop bits Q) (bits.foldl (fun acc b => 2 * acc + b.toNat) m • A) := by
  intro bits
  induction bits with
  | nil => intro m Q hQ; exact ⟨Q, rfl, hQ⟩
  | cons k bits ih =>
    intro m Q hQ
    obtain ⟨x, y, z, rfl, hr⟩ := denotes_iff.1 hQ
    obtain ⟨D, hD, hDd⟩ := add_pt he hb hr hr (by rw [sub_self]; exact not_hasY_zero)
    rw [← two_nsmul, ← mul_nsmul'] at hDd
    simp only [Point.mulLoop, hD, R.ok_bind, List.foldl_cons]
    cases k with
    | false => simpa using ih _ D hDd
    | true =>
      obtain ⟨x', y', z', rfl, hr'⟩ := denotes_iff.1 hDd
      obtain ⟨xp, yp, zp, rfl, hrp⟩ := denotes_iff.1 hP
      obtain ⟨S, hS, hSd⟩ := add_pt he hb hr' hrp (by
        have := hno ((2 * m : ℕ) - 1)
        rwa [sub_smul, one_smul, natCast_zsmul] at this)
      simp only [if_true, hS, R.ok_bind, Bool.toNat_true]
      apply ih
      rwa [add_smul, one_smul]

end ops
end Redox.MLink
