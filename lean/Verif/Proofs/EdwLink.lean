import Verif.Proofs.FpLink
import Verif.Proofs.BitsLink
import Verif.Spec.Edwards

/-! # Edwards points in terms of `ZMod p` -/

set_option linter.unusedSectionVars false

namespace Redox.ELink

open Spec Edwards Edw

section exec
variable {p : ℕ} [NeZero p] {e : Curve} {a d : ZMod p}

/-- The point with the given coordinates. -/
def pt (e : Curve) (x y t z : ZMod p) : Point := ⟨e, ⟨el x, el y, el t, el z⟩⟩

/-- The equations tested by `is_on_curve`. -/
def OnCurve (a d x y t z : ZMod p) : Prop := a * x ^ 2 + y ^ 2 = d * t ^ 2 + z ^ 2 ∧ x * y = t * z

instance (a d x y t z : ZMod p) : Decidable (OnCurve a d x y t z) := inferInstanceAs (Decidable (_ ∧ _))

theorem isOnCurve_pt (ha : e.a = el a) (hd : e.d = el d) (e' : Curve) (x y t z : ZMod p) :
    e.isOnCurve (pt e' x y t z) = R.ok (decide (OnCurve a d x y t z)) := by
  simp only [Curve.isOnCurve, pt, ha, hd, R.fsqr_ok, sqr_el, R.ok_bind, R.fmul_ok, mul_el, R.fadd_ok, add_el,
    R.fsub_ok, sub_el, isZero_el, R.pure_eq, sub_eq_zero, ← Bool.decide_and, R.ok.injEq, decide_eq_decide]
  constructor
  · rintro ⟨h1, h2⟩; exact ⟨by linear_combination h1, h2⟩
  · rintro ⟨h1, h2⟩; exact ⟨by linear_combination h1, h2⟩

theorem newProyPoint_pt (ha : e.a = el a) (hd : e.d = el d) (x y t z : ZMod p) :
    e.newProyPoint ⟨el x, el y, el t, el z⟩ =
      if OnCurve a d x y t z then R.ok (pt e x y t z) else R.panic .notValidPoint := by
  have := isOnCurve_pt ha hd e x y t z
  simp only [pt] at this
  simp only [Curve.newProyPoint, this, R.ok_bind, doIfEq, decide_eq_true_eq, pt]

theorem coreAddCoords_pt (ha : e.a = el a) (hd : e.d = el d) (e' : Curve) (x1 y1 t1 z1 x2 y2 t2 z2 : ZMod p) :
    (pt e x1 y1 t1 z1).coreAddCoords (pt e' x2 y2 t2 z2) =
      R.ok ⟨el ((x1 * y2 + y1 * x2) * (z1 * z2 - d * t1 * t2)), el ((z1 * z2 + d * t1 * t2) * (y1 * y2 - a * x1 * x2)),
        el ((x1 * y2 + y1 * x2) * (y1 * y2 - a * x1 * x2)), el ((z1 * z2 - d * t1 * t2) * (z1 * z2 + d * t1 * t2))⟩ := by
  unfold Point.coreAddCoords
  simp only [pt, ha, hd]
  fp_nested
  simp only [R.pure_eq, R.ok.injEq, ProyCoordinates.mk.injEq, el_inj]
  subst_vars
  refine ⟨by ring, by ring, by ring, by ring⟩

theorem eq_pt (e e' : Curve) (x1 y1 t1 z1 x2 y2 t2 z2 : ZMod p) :
    (pt e x1 y1 t1 z1).eq (pt e' x2 y2 t2 z2) =
      R.ok (decide (e = e' ∧ x1 * z2 = z1 * x2 ∧ y1 * z2 = z1 * y2 ∧ t1 * z2 = z1 * t2)) := by
  simp [Point.eq, pt, Bool.and_assoc, Bool.beq_eq_decide_eq]

theorem isZero_pt (e : Curve) (x y t z : ZMod p) :
    (pt e x y t z).isZero = decide (x = 0 ∧ y ≠ 0 ∧ t = 0 ∧ z ≠ 0) := by
  simp [Point.isZero, pt, Bool.and_assoc]

theorem pt_inj {e e' : Curve} {x y t z x' y' t' z' : ZMod p} :
    pt e x y t z = pt e' x' y' t' z' ↔ e = e' ∧ x = x' ∧ y = y' ∧ t = t' ∧ z = z' := by
  simp [pt]

end exec

section params
variable {p : ℕ} [Fact p.Prime] {e : Curve} (he : EParams p e)
include he

theorem ea : e.a = el (val p e.a) := he.canon_a.eq_el
theorem ed : e.d = el (val p e.d) := he.canon_d.eq_el

theorem two_lt_of : 2 < p := by
  have := he.prime.two_le; have := he.odd; omega

theorem identity_pt : e.identity = R.ok (pt e (0 : ZMod p) 1 0 1) := by
  simp only [Curve.identity, he.field, zero_eq, one_eq, R.ok_bind]
  rw [newProyPoint_pt (ea he) (ed he), if_pos ⟨by ring, by ring⟩]

theorem newPoint_pt (x y : ZMod p) : e.newPoint (el x) (el y) =
    if val p e.a * x ^ 2 + y ^ 2 = 1 + val p e.d * x ^ 2 * y ^ 2 then R.ok (pt e x y (x * y) 1)
    else R.panic .notValidPoint := by
  have hnew : e.newPoint (el x) (el y) = e.newProyPoint ⟨el x, el y, el (x * y), el (1 : ZMod p)⟩ := by
    simp only [Curve.newPoint, Curve.newProyPoint, he.field, one_eq, R.ok_bind, R.fmul_ok, mul_el]
  rw [hnew, newProyPoint_pt (ea he) (ed he)]
  congr 1
  rw [eq_iff_iff]
  constructor
  · rintro ⟨h, _⟩; linear_combination h
  · intro h; exact ⟨by linear_combination h, by ring⟩

theorem normalize_pt (x y t z : ZMod p) :
    (pt e x y t z).normalize = R.ok (pt e (x * z⁻¹) (y * z⁻¹) (x * z⁻¹ * (y * z⁻¹)) 1) := by
  haveI : Fact (2 < p) := ⟨two_lt_of he⟩
  simp [Point.normalize, pt]

end params

section denotes
variable {p : ℕ} [Fact p.Prime] {e : Curve}

/-- The extended coordinates `(x : y : t : z)` represent `A`. -/
def ERep (A : eGroup p e) (x y t z : ZMod p) : Prop := z ≠ 0 ∧ x = A.x * z ∧ y = A.y * z ∧ t = A.x * A.y * z

theorem denotes_iff {P : Point} {A : eGroup p e} :
    EDenotes p e P A ↔ ∃ x y t z : ZMod p, P = pt e x y t z ∧ ERep A x y t z := by
  constructor
  · rintro ⟨he, hx, hy, ht, hz, h⟩
    obtain ⟨e', ⟨x, y, t, z⟩⟩ := P
    simp only at he hx hy ht hz h
    subst he
    refine ⟨val p x, val p y, val p t, val p z, ?_, h⟩
    simp only [pt, ← hx.eq_el, ← hy.eq_el, ← hz.eq_el, ← ht.eq_el]
  · rintro ⟨x, y, t, z, rfl, h⟩
    refine ⟨rfl, canon_el x, canon_el y, canon_el t, canon_el z, ?_⟩
    simp only [pt, val_el]; exact h

theorem denotes_affine (A : eGroup p e) : EDenotes p e (pt e A.x A.y (A.x * A.y) 1) A :=
  denotes_iff.2 ⟨_, _, _, _, rfl, one_ne_zero, by ring, by ring, by ring⟩

theorem ERep.onCurve {A : eGroup p e} {x y t z : ZMod p} (h : ERep A x y t z) :
    OnCurve (val p e.a) (val p e.d) x y t z := by
  obtain ⟨hz, rfl, rfl, rfl⟩ := h
  exact ⟨by linear_combination z ^ 2 * A.h, by ring⟩

theorem exists_rep {x y t z : ZMod p} (h : OnCurve (val p e.a) (val p e.d) x y t z) (hz : z ≠ 0) :
    ∃ A : eGroup p e, ERep A x y t z := by
  obtain ⟨h1, h2⟩ := h
  have ht : t = x * y / z := by rw [eq_div_iff hz, h2]
  refine ⟨⟨x / z, y / z, ?_⟩, hz, ?_, ?_, ?_⟩
  · rw [ht] at h1
    field_simp at h1 ⊢
    linear_combination h1
  · simp only; field_simp
  · simp only; field_simp
  · simp only; rw [ht]; field_simp

theorem ERep.neg {A : eGroup p e} {x y t z : ZMod p} (h : ERep A x y t z) : ERep (-A) (-x) y (-t) z := by
  obtain ⟨hz, rfl, rfl, rfl⟩ := h
  exact ⟨hz, by rw [neg_x]; ring, by rw [neg_y], by rw [neg_x, neg_y]; ring⟩

theorem ERep.eq_iff {A B : eGroup p e} {x1 y1 t1 z1 x2 y2 t2 z2 : ZMod p} (hA : ERep A x1 y1 t1 z1)
    (hB : ERep B x2 y2 t2 z2) : (x1 * z2 = z1 * x2 ∧ y1 * z2 = z1 * y2 ∧ t1 * z2 = z1 * t2) ↔ A = B := by
  obtain ⟨hz, rfl, rfl, rfl⟩ := hA
  obtain ⟨hz', rfl, rfl, rfl⟩ := hB
  constructor
  · rintro ⟨h1, h2, -⟩
    ext
    · exact mul_right_cancel₀ (mul_ne_zero hz hz') (by linear_combination h1)
    · exact mul_right_cancel₀ (mul_ne_zero hz hz') (by linear_combination h2)
  · rintro rfl
    exact ⟨by ring, by ring, by ring⟩

theorem ERep.unique {A B : eGroup p e} {x y t z : ZMod p} (hA : ERep A x y t z) (hB : ERep B x y t z) : A = B :=
  (hA.eq_iff hB).1 ⟨by ring, by ring, by ring⟩

/-- `==` in closed form. -/
theorem eq_of_denotes (P Q : Point) (A B : eGroup p e) (hP : EDenotes p e P A) (hQ : EDenotes p e Q B) :
    P.eq Q = R.ok (decide (A = B)) := by
  obtain ⟨x, y, t, z, rfl, hA⟩ := denotes_iff.1 hP
  obtain ⟨x', y', t', z', rfl, hB⟩ := denotes_iff.1 hQ
  rw [eq_pt]
  congr 1
  rw [decide_eq_decide]
  simp only [true_and]
  exact hA.eq_iff hB

end denotes

section ops
variable {p : ℕ} [Fact p.Prime] {e : Curve} [he : ECurve p e]

theorem ERep.add {A B : eGroup p e} {x1 y1 t1 z1 x2 y2 t2 z2 : ZMod p} (hA : ERep A x1 y1 t1 z1)
    (hB : ERep B x2 y2 t2 z2) :
    ERep (A + B) ((x1 * y2 + y1 * x2) * (z1 * z2 - val p e.d * t1 * t2))
      ((z1 * z2 + val p e.d * t1 * t2) * (y1 * y2 - val p e.a * x1 * x2))
      ((x1 * y2 + y1 * x2) * (y1 * y2 - val p e.a * x1 * x2))
      ((z1 * z2 - val p e.d * t1 * t2) * (z1 * z2 + val p e.d * t1 * t2)) := by
  obtain ⟨hz, rfl, rfl, rfl⟩ := hA
  obtain ⟨hz', rfl, rfl, rfl⟩ := hB
  have h1 := complete_add A B
  have h2 := complete_sub A B
  rw [ERep, add_x, add_y]
  generalize hm : 1 - val p e.d * A.x * B.x * A.y * B.y = m at *
  generalize hmx : 1 + val p e.d * A.x * B.x * A.y * B.y = mx at *
  have e1 : z1 * z2 - val p e.d * (A.x * A.y * z1) * (B.x * B.y * z2) = z1 * z2 * m := by rw [← hm]; ring
  have e2 : z1 * z2 + val p e.d * (A.x * A.y * z1) * (B.x * B.y * z2) = z1 * z2 * mx := by rw [← hmx]; ring
  rw [e1, e2]
  refine ⟨by positivity, ?_, ?_, ?_⟩ <;> field_simp

theorem newProyPoint_rep {A : eGroup p e} {x y t z : ZMod p} (h : ERep A x y t z) :
    e.newProyPoint ⟨el x, el y, el t, el z⟩ = R.ok (pt e x y t z) := by
  rw [newProyPoint_pt (ea he.params) (ed he.params), if_pos h.onCurve]

theorem neg_pt {A : eGroup p e} {x y t z : ZMod p} (h : ERep A x y t z) :
    (pt e x y t z).neg = R.ok (pt e (-x) y (-t) z) := by
  have := newProyPoint_rep h.neg
  simp only [Point.neg, pt, neg_el, R.ok_bind, this]

theorem add_denotes {P Q : Point} {A B : eGroup p e} (hP : EDenotes p e P A) (hQ : EDenotes p e Q B) :
    EReturns p e (P.add Q) (A + B) := by
  obtain ⟨x1, y1, t1, z1, rfl, hA⟩ := denotes_iff.1 hP
  obtain ⟨x2, y2, t2, z2, rfl, hB⟩ := denotes_iff.1 hQ
  have h := hA.add hB
  have hb' : ((pt e x1 y1 t1 z1).e == (pt e x2 y2 t2 z2).e) = true := by simp [pt]
  refine ⟨_, ?_, denotes_iff.2 ⟨_, _, _, _, rfl, h⟩⟩
  rw [Point.add, hb', doIfEq_true, Point.coreAdd, coreAddCoords_pt (ea he.params) (ed he.params), R.ok_bind]
  exact newProyPoint_rep (e := e) h

theorem neg_denotes {P : Point} {A : eGroup p e} (hP : EDenotes p e P A) : EReturns p e P.neg (-A) := by
  obtain ⟨x1, y1, t1, z1, rfl, hA⟩ := denotes_iff.1 hP
  exact ⟨_, neg_pt hA, denotes_iff.2 ⟨_, _, _, _, rfl, hA.neg⟩⟩

theorem identity_denotes : EDenotes p e (pt e (0 : ZMod p) 1 0 1) 0 :=
  denotes_iff.2 ⟨_, _, _, _, rfl, one_ne_zero, by rw [zero_x]; ring, by rw [zero_y]; ring, by rw [zero_x]; ring⟩

/-- The loop of `core_mul`. -/
theorem mulLoop_pt {A : eGroup p e} {P : Point} (hP : EDenotes p e P A) :
    ∀ (bits : List Bool) (m : ℕ) (Q : Point), EDenotes p e Q (m • A) →
    EReturns p e (P.mulLoop bits Q) (bits.foldl (fun acc b => 2 * acc + b.toNat) m • A) := by
  intro bits
  induction bits with
  | nil => intro m Q hQ; exact ⟨Q, rfl, hQ⟩
  | cons k bits ih =>
    intro m Q hQ
    obtain ⟨D, hD, hDd⟩ := add_denotes hQ hQ
    rw [← two_nsmul, ← mul_nsmul'] at hDd
    simp only [Point.mulLoop, hD, R.ok_bind, List.foldl_cons]
    cases k with
    | false => simpa using ih _ D hDd
    | true =>
      obtain ⟨S, hS, hSd⟩ := add_denotes hDd hP
      simp only [if_true, hS, R.ok_bind, Bool.toNat_true]
      apply ih
      rwa [add_smul, one_smul]

end ops
end Redox.ELink
