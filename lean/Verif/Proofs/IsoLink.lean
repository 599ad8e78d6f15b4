import Verif.Spec.Isogeny
import Verif.Math.PolyCheck
import Verif.Proofs.MapLink

/-! # The isogenies of the model in terms of `ZMod p` -/

set_option linter.unusedSectionVars false

namespace Redox.RLink

open Spec PolyC

variable {p : ℕ} [Fact p.Prime]

theorem polyVal_eq (cs : List FpElt) (x : ZMod p) : polyVal p cs x = evalP x (cs.map (val p)) := by
  rw [polyVal]
  induction cs with
  | nil => simp [evalP]
  | cons c cs ih =>
    rw [List.map_cons, evalP, ← ih]
    refine (Fin.sum_univ_succ (n := cs.length) fun i => val p ((c :: cs).get i) * x ^ (i : ℕ)).trans ?_
    simp only [List.get_eq_getElem, List.length_cons, Fin.val_zero, pow_zero, mul_one, List.getElem_cons_zero, Fin.val_succ,
      List.getElem_cons_succ, Finset.mul_sum]
    congr 1
    refine Finset.sum_congr rfl fun i _ => ?_
    ring

/-- The polynomial with the natural representatives as coefficients. -/
theorem polyVal_ev (cs : List FpElt) (hc : ∀ c ∈ cs, Canon p c) (x : ZMod p) :
    polyVal p cs x = ev x (cs.map fun c => c.n.toNat) := by
  rw [polyVal_eq, ev, List.map_map]
  congr 1
  refine List.map_congr_left fun c h => ?_
  have := (hc c h).1
  rw [Function.comp, Spec.val]
  conv_lhs => rw [← Int.toNat_of_nonneg (hc c h).2.1]
  rw [Int.cast_natCast]

theorem horner_el [Fact (2 < p)] (cs : List FpElt) (hc : ∀ c ∈ cs, Canon p c) (x : ZMod p) :
    horner ⟨p⟩ (el x) cs = R.ok (el (polyVal p cs x)) := by
  rw [polyVal_eq]
  induction cs with
  | nil => simp [horner, evalP, zero_eq]
  | cons c cs ih =>
    rw [horner, ih fun c' h' => hc c' (List.mem_cons_of_mem _ h'), (hc c List.mem_cons_self).eq_el, List.map_cons, evalP]
    simp only [R.fmul_ok, mul_el, R.fadd_ok, add_el, val_el]
    congr 2; ring

variable {m : IsoMap}

/-- `push` reads the first two coordinates only. -/
theorem iso_push (h : IsoOK p m) (x y z : ZMod p) :
    m.push (WLink.pt m.e0 x y z) = m.e1.newPoint (el (polyVal p m.x_num x / polyVal p m.x_den x))
      (el (y * (polyVal p m.y_num x / polyVal p m.y_den x))) := by
  haveI : Fact (2 < p) := ⟨by have := h.e0.prime.two_le; have := h.e0.odd; omega⟩
  simp only [IsoMap.push, Weierstrass.Curve.getField, h.e0.field, WLink.pt, horner_el _ h.canon_xn, horner_el _ h.canon_xd,
    horner_el _ h.canon_yn, horner_el _ h.canon_yd, R.ok_bind, R.fdiv_ok, div_el, R.fmul_ok, mul_el]

/-- The rational functions map points to points. -/
theorem iso_curve (h : IsoOK p m) {x y : ZMod p} (hk : ¬ InKernel p m x)
    (hc : y ^ 2 = x ^ 3 + val p m.e0.a * x + val p m.e0.b) :
    (y * (polyVal p m.y_num x / polyVal p m.y_den x)) ^ 2 =
      rhs (val p m.e1.a) (val p m.e1.b) (polyVal p m.x_num x / polyVal p m.x_den x) := by
  have hm := h.maps x
  rw [InKernel, not_or] at hk
  obtain ⟨h1, h2⟩ := hk
  unfold rhs
  rw [mul_pow, hc]
  generalize polyVal p m.x_num x = a at *
  generalize polyVal p m.x_den x = b at *
  generalize polyVal p m.y_num x = c at *
  generalize polyVal p m.y_den x = d at *
  field_simp
  linear_combination -hm

/-- Representatives of the coefficients. -/
def nats (cs : List FpElt) : List ℕ := cs.map fun c => c.n.toNat

/-- All entries are canonical. -/
def canonB (p : ℕ) (cs : List FpElt) : Bool := cs.all fun c => c.f == ⟨p⟩ && decide (0 ≤ c.n) && decide (c.n < p)

theorem canon_of_canonB {cs : List FpElt} (h : canonB p cs = true) : ∀ c ∈ cs, Canon p c := by
  intro c hc
  have := List.all_eq_true.1 h c hc
  simp only [Bool.and_eq_true, beq_iff_eq, decide_eq_true_eq] at this
  exact ⟨this.1.1, this.1.2, this.2⟩

theorem val_toNat {c : FpElt} (h : Canon p c) : val p c = (c.n.toNat : ZMod p) := by
  rw [Spec.val]
  conv_lhs => rw [← Int.toNat_of_nonneg h.2.1]
  rw [Int.cast_natCast]

theorem isoOK_of_check (m : IsoMap) (h0 : WCurve p m.e0) (h1 : WCurve p m.e1) (hxn : canonB p m.x_num = true)
    (hxd : canonB p m.x_den = true) (hyn : canonB p m.y_num = true) (hyd : canonB p m.y_den = true)
    (h : isoCheck p m.e0.a.n.toNat m.e0.b.n.toNat m.e1.a.n.toNat m.e1.b.n.toNat (nats m.x_num) (nats m.x_den)
      (nats m.y_num) (nats m.y_den) = true) : IsoOK p m := by
  refine ⟨h0, h1, canon_of_canonB hxn, canon_of_canonB hxd, canon_of_canonB hyn, canon_of_canonB hyd, fun x => ?_⟩
  have := isoCheck_spec h x
  rw [polyVal_ev _ (canon_of_canonB hxn), polyVal_ev _ (canon_of_canonB hxd), polyVal_ev _ (canon_of_canonB hyn),
    polyVal_ev _ (canon_of_canonB hyd), val_toNat h0.canon_a, val_toNat h0.canon_b, val_toNat h1.canon_a, val_toNat h1.canon_b]
  exact this

/-- The denominators vanish exactly at the roots `rs`. -/
theorem inKernel_of_check (m : IsoMap) (h : IsoOK p m) {rs : List ℕ} (hr : rs.all (· < p) = true)
    (hx : eqL (nats m.x_den) (linProd p 2 rs) = true) (hy : eqL (nats m.y_den) (linProd p 3 rs) = true) (x : ZMod p) :
    InKernel p m x ↔ ∃ r ∈ rs, x = (r : ZMod p) := by
  have e1 := ev_eq x _ _ hx
  have e2 := ev_eq x _ _ hy
  rw [InKernel, polyVal_ev _ h.canon_xd, polyVal_ev _ h.canon_yd]
  change ev x (nats m.x_den) = 0 ∨ ev x (nats m.y_den) = 0 ↔ _
  rw [e1, e2, ev_linProd_eq_zero (by norm_num) hr, ev_linProd_eq_zero (by norm_num) hr, or_self]

/-- The two denominators vanish at the same places. -/
theorem both_of_check (m : IsoMap) (h : IsoOK p m) {rs : List ℕ} (hr : rs.all (· < p) = true)
    (hx : eqL (nats m.x_den) (linProd p 2 rs) = true) (hy : eqL (nats m.y_den) (linProd p 3 rs) = true) (x : ZMod p)
    (hk : InKernel p m x) : polyVal p m.x_den x = 0 ∧ polyVal p m.y_den x = 0 := by
  have hk' := (inKernel_of_check m h hr hx hy x).1 hk
  have e1 := ev_eq x _ _ hx
  have e2 := ev_eq x _ _ hy
  rw [polyVal_ev _ h.canon_xd, polyVal_ev _ h.canon_yd]
  change ev x (nats m.x_den) = 0 ∧ ev x (nats m.y_den) = 0
  rw [e1, e2, ev_linProd_eq_zero (by norm_num) hr, ev_linProd_eq_zero (by norm_num) hr]
  exact ⟨hk', hk'⟩

end Redox.RLink
