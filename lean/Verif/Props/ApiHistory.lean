import Verif.Spec.Api
import Verif.Model.Display
import Verif.Instances.Curves
import Verif.Props.FieldHistory
import Verif.Proofs.WeierLink
import Verif.Proofs.MontLink
import Verif.Proofs.EdwLink
import Verif.Props.FieldBytes
import Verif.Props.ScalarProps

/-!
# C84: histories over the whole library
-/

namespace Redox.Props.ApiH

open Spec

/-- Reduced in its own field. -/
def Red (c : FpElt) : Prop := 0 ≤ c.n ∧ c.n < c.f.p

theorem Red.canon {c : FpElt} (h : Red c) {f : Fp} (hf : c.f = f) : Canon f.p c := ⟨by rw [hf], h.1, hf ▸ h.2⟩

theorem red_of {c : FpElt} {p : ℕ} (h : Canon p c) : Red c := ⟨h.2.1, by have := h.2.2; rw [h.1]; exact this⟩

theorem modFloor_ok {a m n : ℤ} (h : Big.modFloor a m = R.ok n) (hm : 0 ≤ m) : 0 ≤ n ∧ n < m := by
  unfold Big.modFloor at h
  split_ifs at h with h0
  rw [R.ok.injEq] at h
  subst h
  exact ⟨Int.fmod_nonneg_of_pos _ (by omega), Int.fmod_lt_of_pos _ (by omega)⟩

theorem red_ok {a c : FpElt} {n : ℤ} (h : a.red n = R.ok c) : c.f = a.f ∧ Red c := by
  obtain ⟨m, hm, h⟩ := R.bind_eq_ok.1 h
  simp only [R.pure_eq, R.ok.injEq] at h
  subst h
  exact ⟨rfl, modFloor_ok hm (by positivity)⟩

theorem elt_ok {f : Fp} {c : FpElt} {n : ℤ} (h : f.elt n = R.ok c) : c.f = f ∧ Red c := by
  obtain ⟨m, hm, h⟩ := R.bind_eq_ok.1 h
  simp only [R.pure_eq, R.ok.injEq] at h
  subst h
  exact ⟨rfl, modFloor_ok hm (by positivity)⟩

theorem doIf_ok {α : Type} {c : Bool} {b : R α} {w : Panic} {z : α} (h : doIfEq c b w = R.ok z) :
    c = true ∧ b = R.ok z := by
  cases c
  · cases h
  · exact ⟨rfl, h⟩

/-- The three operands are in one field and the result is reduced. -/
def Bin (a b c : FpElt) : Prop := a.f = b.f ∧ c.f = a.f ∧ Red c

theorem add_ok {a b c : FpElt} (h : a.add b = R.ok c) : Bin a b c := by
  obtain ⟨h0, h⟩ := doIf_ok h
  exact ⟨beq_iff_eq.1 h0, red_ok h⟩

theorem sub_ok {a b c : FpElt} (h : a.sub b = R.ok c) : Bin a b c := by
  obtain ⟨h0, h⟩ := doIf_ok h
  exact ⟨beq_iff_eq.1 h0, red_ok h⟩

theorem mul_ok {a b c : FpElt} (h : a.mul b = R.ok c) : Bin a b c := by
  obtain ⟨h0, h⟩ := doIf_ok h
  exact ⟨beq_iff_eq.1 h0, red_ok h⟩

theorem neg_ok {a c : FpElt} (h : a.neg = R.ok c) : c.f = a.f ∧ Red c := red_ok h

theorem powNat_ok {a c : FpElt} {k : ℕ} (h : a.powNat k = R.ok c) : c.f = a.f ∧ Red c := by
  obtain ⟨_, _, h⟩ := R.bind_eq_ok.1 h
  exact red_ok h

theorem powInt_ok {a c : FpElt} {k : ℤ} (h : a.powInt k = R.ok c) : c.f = a.f ∧ Red c := by
  obtain ⟨_, _, h⟩ := R.bind_eq_ok.1 h
  obtain ⟨_, _, h⟩ := R.bind_eq_ok.1 h
  exact powNat_ok h

theorem div_ok {a b c : FpElt} (h : a.div b = R.ok c) : Bin a b c := by
  obtain ⟨i, hi, h⟩ := R.bind_eq_ok.1 h
  obtain ⟨h1, h2, h3⟩ := mul_ok h
  exact ⟨h1.trans (powInt_ok hi).1, h2, h3⟩

theorem powU32_ok {a c : FpElt} {k : ℕ} (h : a.powU32 k = R.ok c) : c.f = a.f ∧ Red c := (mul_ok (doIf_ok h).2).2

theorem u32Div_ok {a c : FpElt} {k : ℕ} (h : FpElt.u32Div k a = R.ok c) : c.f = a.f ∧ Red c := powInt_ok (doIf_ok h).2

theorem powI32_ok {a c : FpElt} {k : ℤ} (h : a.powI32 k = R.ok c) : c.f = a.f ∧ Red c := powInt_ok (doIf_ok h).2

theorem cmov_ok {a b : FpElt} {k : Bool} {f : Fp} (ha : a.f = f ∧ Red a) (hb : b.f = f ∧ Red b) :
    (a.cmov b k).f = f ∧ Red (a.cmov b k) := by
  cases k <;> assumption

theorem sqrt_ok {a c : FpElt} (h : a.sqrt = R.ok c) : c.f = a.f ∧ Red c := by
  obtain ⟨pre, _, h⟩ := R.bind_eq_ok.1 h
  cases pre with
  | p3mod4 e => exact powInt_ok h
  | p5mod8 e s =>
    simp only [FpElt.sqrtWith] at h
    obtain ⟨t0, h0, h⟩ := R.bind_eq_ok.1 h
    obtain ⟨t1, _, h⟩ := R.bind_eq_ok.1 h
    obtain ⟨t2, h2, h⟩ := R.bind_eq_ok.1 h
    simp only [R.pure_eq, R.ok.injEq] at h
    subst h
    have g0 := powInt_ok h0
    have g2 := mul_ok h2
    exact cmov_ok ⟨g2.2.1.trans g0.1, g2.2.2⟩ g0
  | p9mod16 => cases h
  | p1mod16 => cases h

theorem fromStr_ok {f : Fp} {s : List Byte} {c : FpElt} (h : f.fromStr s = R.ok c) : c.f = f ∧ Red c := by
  obtain ⟨n, hn⟩ := fromStr_elt h
  exact elt_ok hn

/-! The same for expressions, where only the result matters. -/

theorem fadd_red {x y : R FpElt} {c : FpElt} (h : R.fadd x y = R.ok c) : Red c := by
  obtain ⟨_, _, h⟩ := R.bind_eq_ok.1 h
  obtain ⟨_, _, h⟩ := R.bind_eq_ok.1 h
  exact (add_ok h).2.2

theorem fsub_red {x y : R FpElt} {c : FpElt} (h : R.fsub x y = R.ok c) : Red c := by
  obtain ⟨_, _, h⟩ := R.bind_eq_ok.1 h
  obtain ⟨_, _, h⟩ := R.bind_eq_ok.1 h
  exact (sub_ok h).2.2

theorem fmul_red {x y : R FpElt} {c : FpElt} (h : R.fmul x y = R.ok c) : Red c := by
  obtain ⟨_, _, h⟩ := R.bind_eq_ok.1 h
  obtain ⟨_, _, h⟩ := R.bind_eq_ok.1 h
  exact (mul_ok h).2.2

theorem fdiv_red {x y : R FpElt} {c : FpElt} (h : R.fdiv x y = R.ok c) : Red c := by
  obtain ⟨_, _, h⟩ := R.bind_eq_ok.1 h
  obtain ⟨_, _, h⟩ := R.bind_eq_ok.1 h
  exact (div_ok h).2.2

theorem fneg_red {x : R FpElt} {c : FpElt} (h : R.fneg x = R.ok c) : Red c := by
  obtain ⟨_, _, h⟩ := R.bind_eq_ok.1 h
  exact (neg_ok h).2

theorem fsqr_red {x : R FpElt} {c : FpElt} (h : R.fsqr x = R.ok c) : Red c := by
  obtain ⟨_, _, h⟩ := R.bind_eq_ok.1 h
  exact (powU32_ok h).2

theorem finv_red {x : R FpElt} {c : FpElt} (h : R.finv x = R.ok c) : Red c := by
  obtain ⟨_, _, h⟩ := R.bind_eq_ok.1 h
  exact (u32Div_ok h).2

theorem cmov_red {a b : FpElt} {k : Bool} (ha : Red a) (hb : Red b) : Red (a.cmov b k) := by
  cases k <;> assumption

theorem ok_red {a b : FpElt} (h : R.ok a = R.ok b) (ha : Red a) : Red b := by
  rw [R.ok.injEq] at h
  exact h ▸ ha

/-- Take the outcome of a sequence of steps apart. -/
macro "steps" h:ident : tactic => `(tactic| repeat (obtain ⟨_, _, $h⟩ := R.bind_eq_ok.1 $h))

/-- A result of an operation is reduced. -/
macro "red" : tactic => `(tactic| first
  | assumption
  | exact fadd_red (by assumption) | exact fsub_red (by assumption) | exact fmul_red (by assumption)
  | exact fdiv_red (by assumption) | exact fneg_red (by assumption) | exact fsqr_red (by assumption)
  | exact finv_red (by assumption) | exact (neg_ok (by assumption)).2 | exact (elt_ok (by assumption)).2
  | exact (sqrt_ok (by assumption)).2 | exact ok_red (by assumption) (sqrt_ok (by assumption)).2)

section
open Weierstrass

theorem wtwo_le_of {o : R Curve} {e e' : Curve} (h : o = R.ok e) (h' : o = R.ok e') (hp : 2 ≤ e.f.p) : 2 ≤ e'.f.p := by
  rw [h, R.ok.injEq] at h'
  exact h' ▸ hp

theorem WisOnCurve_fields {e : Curve} {P : Point} {r : Bool} (h : e.isOnCurve P = R.ok r) :
    P.c.x.f = e.a.f ∧ P.c.z.f = e.b.f ∧ P.c.y.f = P.c.z.f := by
  simp only [Curve.isOnCurve] at h
  obtain ⟨x3, _, h⟩ := R.bind_eq_ok.1 h
  obtain ⟨bz, hbz, h⟩ := R.bind_eq_ok.1 h
  obtain ⟨ax, hax, h⟩ := R.bind_eq_ok.1 h
  obtain ⟨zz, hzz, h⟩ := R.bind_eq_ok.1 h
  obtain ⟨zy, hzy, h⟩ := R.bind_eq_ok.1 h
  have h1 := (mul_ok hbz).1
  have h2 := (mul_ok hax).1
  obtain ⟨t, ht, hzz⟩ := R.bind_eq_ok.1 (show ((R.fadd (R.ok ax) (R.ok bz)) >>= fun t => P.c.z.mul t) = _ from hzz)
  have h3 := mul_ok hzz
  obtain ⟨w, hw, hzy⟩ := R.bind_eq_ok.1
    (show ((R.fsub (R.ok zz) (R.fsqr (R.ok P.c.y))) >>= fun t => P.c.z.mul t) = _ from hzy)
  obtain ⟨y2, hy2, hw⟩ := R.bind_eq_ok.1 (show ((R.fsqr (R.ok P.c.y)) >>= fun t => zz.sub t) = _ from hw)
  have h4 := sub_ok hw
  have h5 := powU32_ok (a := P.c.y) (k := 2) hy2
  exact ⟨h2.symm, h1.symm, h5.1.symm.trans (h4.1.symm.trans h3.2.1)⟩

theorem wp_of_onCurve {e : Curve} (he : WcOk e) {c : ProyCoordinates} (hx : Red c.x) (hy : Red c.y) (hz : Red c.z)
    (h : e.isOnCurve ⟨e, c⟩ = R.ok true) : WpOk ⟨e, c⟩ := by
  obtain ⟨h1, h2, h3⟩ := WisOnCurve_fields h
  have : NeZero e.f.p := ⟨by have := he.mod; omega⟩
  have cx : Canon e.f.p c.x := hx.canon (f := e.f) (h1.trans he.a.1)
  have cz : Canon e.f.p c.z := hz.canon (f := e.f) (h2.trans he.b.1)
  have cy : Canon e.f.p c.y := hy.canon (f := e.f) (h3.trans cz.1)
  refine ⟨⟨he, cx, cy, cz⟩, ?_⟩
  have hp : (⟨e, c⟩ : Point) = WLink.pt e (val e.f.p c.x) (val e.f.p c.y) (val e.f.p c.z) := by
    simp only [WLink.pt, ← cx.eq_el, ← cy.eq_el, ← cz.eq_el]
  rw [hp, WLink.isOnCurve_pt he.a.eq_el he.b.eq_el, R.ok.injEq, decide_eq_true_eq] at h
  show val e.f.p c.y ^ 2 * val e.f.p c.z = _
  linear_combination -h

theorem wp_newProy {e : Curve} (he : WcOk e) {c : ProyCoordinates} {P : Point} (h : e.newProyPoint c = R.ok P)
    (hx : Red c.x) (hy : Red c.y) (hz : Red c.z) : WpOk P := by
  obtain ⟨b, hb, h⟩ := R.bind_eq_ok.1 h
  obtain ⟨rfl, h'⟩ := doIf_ok h
  rw [R.ok.injEq] at h'
  subst h'
  exact wp_of_onCurve he hx hy hz hb

theorem wp_new {e : Curve} (he : WcOk e) {x y : FpElt} {P : Point} (h : e.newPoint x y = R.ok P) (hx : Red x)
    (hy : Red y) : WpOk P := by
  obtain ⟨o, ho, h⟩ := R.bind_eq_ok.1 h
  exact wp_newProy he (c := ⟨x, y, o⟩) h hx hy (elt_ok ho).2

theorem wp_identity {e : Curve} (he : WcOk e) {P : Point} (h : e.identity = R.ok P) : WpOk P := by
  obtain ⟨a, ha, h⟩ := R.bind_eq_ok.1 h
  obtain ⟨b, hb, h⟩ := R.bind_eq_ok.1 h
  obtain ⟨c, hc, h⟩ := R.bind_eq_ok.1 h
  exact wp_newProy he h (elt_ok ha).2 (elt_ok hb).2 (elt_ok hc).2

theorem wp_generator {e : Curve} (he : WcOk e) {P : Point} (h : e.getGenerator = R.ok P) : WpOk P := by
  obtain ⟨c, hc, h⟩ := R.bind_eq_ok.1 h
  exact wp_newProy he h (red_of he.gx) (red_of he.gy) (elt_ok hc).2

theorem wp_neg {P S : Point} (hP : WpReduced P) (h : P.neg = R.ok S) : WpOk S := by
  obtain ⟨y, hy, h⟩ := R.bind_eq_ok.1 h
  exact wp_newProy hP.curve (c := ⟨P.c.x, y, P.c.z⟩) h (red_of hP.x) (neg_ok hy).2 (red_of hP.z)

theorem WAddCoords_red {P Q : Point} {c : ProyCoordinates} (h : P.coreAddCoords Q = R.ok c) :
    Red c.x ∧ Red c.y ∧ Red c.z := by
  simp only [Point.coreAddCoords] at h
  steps h
  simp only [R.pure_eq, R.ok.injEq] at h
  subst h
  exact ⟨by red, by red, by red⟩

theorem wp_coreAdd {P Q S : Point} (hP : WpReduced P) (h : P.coreAdd Q = R.ok S) : WpOk S := by
  obtain ⟨c, hc, h⟩ := R.bind_eq_ok.1 h
  obtain ⟨hx, hy, hz⟩ := WAddCoords_red hc
  exact wp_newProy hP.curve h hx hy hz

theorem wp_add {P Q S : Point} (hP : WpReduced P) (h : P.add Q = R.ok S) : WpOk S := wp_coreAdd hP (doIf_ok h).2

theorem wp_sub {P Q S : Point} (hP : WpReduced P) (h : P.sub Q = R.ok S) : WpOk S := by
  obtain ⟨_, _, h⟩ := R.bind_eq_ok.1 h
  exact wp_add hP h

theorem WDoubleCoords_red {P : Point} {c : ProyCoordinates} (h : P.coreDoublingCoords = R.ok c) :
    Red c.x ∧ Red c.y ∧ Red c.z := by
  simp only [Point.coreDoublingCoords] at h
  steps h
  simp only [R.pure_eq, R.ok.injEq] at h
  subst h
  exact ⟨by red, by red, by red⟩

theorem wp_double {P S : Point} (hP : WpReduced P) (h : P.coreDoubling = R.ok S) : WpOk S := by
  obtain ⟨c, hc, h⟩ := R.bind_eq_ok.1 h
  obtain ⟨hx, hy, hz⟩ := WDoubleCoords_red hc
  exact wp_newProy hP.curve h hx hy hz

theorem wp_mulLoop {P : Point} :
    ∀ (bits : List Bool) (Q S : Point), WpOk Q → P.mulLoop bits Q = R.ok S → WpOk S := by
  intro bits
  induction bits with
  | nil => intro Q S hQ h; simp only [Point.mulLoop, R.ok.injEq] at h; exact h ▸ hQ
  | cons k bits ih =>
    intro Q S hQ h
    rw [Point.mulLoop] at h
    obtain ⟨D, hD, h⟩ := R.bind_eq_ok.1 h
    have hDg := wp_double hQ.toWpReduced hD
    cases k with
    | false => exact ih D S hDg (by simpa using h)
    | true =>
      simp only [if_true] at h
      obtain ⟨T, hT, h⟩ := R.bind_eq_ok.1 h
      exact ih T S (wp_add hDg.toWpReduced hT) h

theorem wp_mul {prof : Profile} {P S : Point} {k : Scalar} (hP : WpReduced P) (h : P.mul prof k = R.ok S) : WpOk S := by
  obtain ⟨Q, hQ, h⟩ := R.bind_eq_ok.1 (doIf_ok h).2
  obtain ⟨bits, _, h⟩ := R.bind_eq_ok.1 h
  exact wp_mulLoop bits Q S (wp_identity hP.curve hQ) h

theorem wp_normalize {P S : Point} (hP : WpOk P) (hp : P.e.f.p.Prime) (h2 : P.e.f.p ≠ 2)
    (hz : P.c.z.isZero = false) (h : P.normalize = R.ok S) : WpOk S := by
  obtain ⟨e, ⟨x, y, z⟩⟩ := P
  obtain ⟨⟨he, cx, cy, cz⟩, heq⟩ := hP
  simp only at he cx cy cz heq hp h2 hz
  have : Fact e.f.p.Prime := ⟨hp⟩
  have : Fact (2 < e.f.p) := ⟨by have := hp.two_le; omega⟩
  obtain ⟨x, rfl⟩ := canon_iff.1 cx
  obtain ⟨y, rfl⟩ := canon_iff.1 cy
  obtain ⟨z, rfl⟩ := canon_iff.1 cz
  have hz' : z ≠ 0 := by simpa using hz
  simp only [val_el] at heq
  simp only [Point.normalize, u32Div_el, R.ok_bind, R.fmul_ok, mul_el, R.pure_eq, R.ok.injEq, setOne_el] at h
  subst h
  refine ⟨⟨he, canon_el _, canon_el _, canon_el _⟩, ?_⟩
  simp only [val_el]
  field_simp
  linear_combination heq

theorem wp_decode {e : Curve} (he : WcOk e) {buf : List Byte} {P : Point} (h : e.decode buf = R.ok (.ok P)) :
    WpOk P := by
  simp only [Curve.decode] at h
  split at h
  · cases h
  steps h
  split at h
  · cases h
  split at h
  · split at h
    · cases h
    · steps h
      simp only [R.pure_eq, R.ok.injEq, Except.ok.injEq] at h
      subst h
      exact wp_identity he (by assumption)
  split at h
  · split at h
    · cases h
    · steps h
      split at h
      · cases h
      · steps h
        simp only [R.pure_eq, R.ok.injEq, Except.ok.injEq] at h
        subst h
        exact wp_new he (by assumption) (by red) (by red)
  split at h
  · split at h
    · cases h
    · steps h
      split at h
      all_goals
        steps h
        simp only [R.pure_eq, R.ok.injEq, Except.ok.injEq] at h
        subst h
        exact wp_new he (by assumption) (by red) (by red)
  · cases h

end

section
open Montgomery

theorem mtwo_le_of {o : R Curve} {e e' : Curve} (h : o = R.ok e) (h' : o = R.ok e') (hp : 2 ≤ e.f.p) : 2 ≤ e'.f.p := by
  rw [h, R.ok.injEq] at h'
  exact h' ▸ hp

theorem MisOnCurve_fields {e : Curve} {P : Point} {r : Bool} (h : e.isOnCurve P = R.ok r) :
    P.c.y.f = e.b.f ∧ P.c.z.f = e.b.f ∧ P.c.x.f = e.a.f := by
  simp only [Curve.isOnCurve] at h
  obtain ⟨l, hl, h⟩ := R.bind_eq_ok.1 h
  obtain ⟨r', hr, h⟩ := R.bind_eq_ok.1 h
  obtain ⟨t, ht, hl⟩ := R.bind_eq_ok.1
    (show ((R.fmul (R.ok e.b) (R.fsqr (R.ok P.c.y))) >>= fun t => t.mul P.c.z) = _ from hl)
  obtain ⟨y2, hy2, ht⟩ := R.bind_eq_ok.1 (show ((R.fsqr (R.ok P.c.y)) >>= fun t => e.b.mul t) = _ from ht)
  have h1 := powU32_ok (a := P.c.y) (k := 2) hy2
  have h2 := mul_ok ht
  have h3 := mul_ok hl
  obtain ⟨w, hw, hr⟩ := R.bind_eq_ok.1
    (show ((R.fadd (R.fadd (R.fsqr (R.ok P.c.x)) (R.fmul (R.fmul (R.ok e.a) (R.ok P.c.x)) (R.ok P.c.z)))
      (R.fsqr (R.ok P.c.z))) >>= fun t => P.c.x.mul t) = _ from hr)
  obtain ⟨s1, hs1, hw⟩ := R.bind_eq_ok.1 hw
  obtain ⟨s2, hs2, hs1⟩ := R.bind_eq_ok.1 hs1
  obtain ⟨s3, hs3, hs1⟩ := R.bind_eq_ok.1 hs1
  obtain ⟨s4, hs4, hs3⟩ := R.bind_eq_ok.1 hs3
  have h4 := mul_ok (a := e.a) (b := P.c.x) hs4
  exact ⟨h1.1.symm.trans h2.1.symm, h3.1.symm.trans h2.2.1, h4.1.symm⟩

theorem mp_of_onCurve {e : Curve} (he : McOk e) {c : ProyCoordinates} (hx : Red c.x) (hy : Red c.y) (hz : Red c.z)
    (h : e.isOnCurve ⟨e, c⟩ = R.ok true) : MpOk ⟨e, c⟩ := by
  obtain ⟨h1, h2, h3⟩ := MisOnCurve_fields h
  have : NeZero e.f.p := ⟨by have := he.mod; omega⟩
  have cx : Canon e.f.p c.x := hx.canon (f := e.f) (h3.trans he.a.1)
  have cy : Canon e.f.p c.y := hy.canon (f := e.f) (h1.trans he.b.1)
  have cz : Canon e.f.p c.z := hz.canon (f := e.f) (h2.trans he.b.1)
  refine ⟨⟨he, cx, cy, cz⟩, ?_⟩
  have hp : (⟨e, c⟩ : Point) = MLink.pt e (val e.f.p c.x) (val e.f.p c.y) (val e.f.p c.z) := by
    simp only [MLink.pt, ← cx.eq_el, ← cy.eq_el, ← cz.eq_el]
  rw [hp, MLink.isOnCurve_pt he.a.eq_el he.b.eq_el, R.ok.injEq, decide_eq_true_eq] at h
  show val e.f.p e.b * val e.f.p c.y ^ 2 * val e.f.p c.z = _
  linear_combination h

theorem mp_newProy {e : Curve} (he : McOk e) {c : ProyCoordinates} {P : Point} (h : e.newProyPoint c = R.ok P)
    (hx : Red c.x) (hy : Red c.y) (hz : Red c.z) : MpOk P := by
  obtain ⟨b, hb, h⟩ := R.bind_eq_ok.1 h
  obtain ⟨rfl, h'⟩ := doIf_ok h
  rw [R.ok.injEq] at h'
  subst h'
  exact mp_of_onCurve he hx hy hz hb

theorem mp_new {e : Curve} (he : McOk e) {x y : FpElt} {P : Point} (h : e.newPoint x y = R.ok P) (hx : Red x)
    (hy : Red y) : MpOk P := by
  obtain ⟨o, ho, h⟩ := R.bind_eq_ok.1 h
  exact mp_newProy he (c := ⟨x, y, o⟩) h hx hy (elt_ok ho).2

theorem mp_identity {e : Curve} (he : McOk e) {P : Point} (h : e.identity = R.ok P) : MpOk P := by
  obtain ⟨a, ha, h⟩ := R.bind_eq_ok.1 h
  obtain ⟨b, hb, h⟩ := R.bind_eq_ok.1 h
  obtain ⟨c, hc, h⟩ := R.bind_eq_ok.1 h
  exact mp_newProy he h (elt_ok ha).2 (elt_ok hb).2 (elt_ok hc).2

theorem mp_generator {e : Curve} (he : McOk e) {P : Point} (h : e.getGenerator = R.ok P) : MpOk P := by
  obtain ⟨c, hc, h⟩ := R.bind_eq_ok.1 h
  exact mp_newProy he h (red_of he.gx) (red_of he.gy) (elt_ok hc).2

theorem mp_neg {P S : Point} (hP : MpReduced P) (h : P.neg = R.ok S) : MpOk S := by
  obtain ⟨y, hy, h⟩ := R.bind_eq_ok.1 h
  exact mp_newProy hP.curve (c := ⟨P.c.x, y, P.c.z⟩) h (red_of hP.x) (neg_ok hy).2 (red_of hP.z)

theorem MAddCoords_red {P Q : Point} {c : ProyCoordinates} (h : P.coreAddCoords Q = R.ok c) :
    Red c.x ∧ Red c.y ∧ Red c.z := by
  simp only [Point.coreAddCoords] at h
  steps h
  simp only [R.pure_eq, R.ok.injEq] at h
  subst h
  exact ⟨by red, by red, by red⟩

theorem mp_coreAdd {P Q S : Point} (hP : MpReduced P) (h : P.coreAdd Q = R.ok S) : MpOk S := by
  obtain ⟨c, hc, h⟩ := R.bind_eq_ok.1 h
  obtain ⟨hx, hy, hz⟩ := MAddCoords_red hc
  exact mp_newProy hP.curve h hx hy hz

theorem mp_add {P Q S : Point} (hP : MpReduced P) (h : P.add Q = R.ok S) : MpOk S := mp_coreAdd hP (doIf_ok h).2

theorem mp_sub {P Q S : Point} (hP : MpReduced P) (h : P.sub Q = R.ok S) : MpOk S := by
  obtain ⟨_, _, h⟩ := R.bind_eq_ok.1 h
  exact mp_add hP h

theorem mp_mulLoop {P : Point} :
    ∀ (bits : List Bool) (Q S : Point), MpOk Q → P.mulLoop bits Q = R.ok S → MpOk S := by
  intro bits
  induction bits with
  | nil => intro Q S hQ h; simp only [Point.mulLoop, R.ok.injEq] at h; exact h ▸ hQ
  | cons k bits ih =>
    intro Q S hQ h
    rw [Point.mulLoop] at h
    obtain ⟨D, hD, h⟩ := R.bind_eq_ok.1 h
    have hDg := mp_add hQ.toMpReduced hD
    cases k with
    | false => exact ih D S hDg (by simpa using h)
    | true =>
      simp only [if_true] at h
      obtain ⟨T, hT, h⟩ := R.bind_eq_ok.1 h
      exact ih T S (mp_add hDg.toMpReduced hT) h

theorem mp_mul {prof : Profile} {P S : Point} {k : Scalar} (hP : MpReduced P) (h : P.mul prof k = R.ok S) : MpOk S := by
  obtain ⟨Q, hQ, h⟩ := R.bind_eq_ok.1 (doIf_ok h).2
  obtain ⟨bits, _, h⟩ := R.bind_eq_ok.1 h
  exact mp_mulLoop bits Q S (mp_identity hP.curve hQ) h

theorem mp_normalize {P S : Point} (hP : MpOk P) (hp : P.e.f.p.Prime) (h2 : P.e.f.p ≠ 2)
    (h : P.normalize = R.ok S) : MpOk S := by
  obtain ⟨e, ⟨x, y, z⟩⟩ := P
  obtain ⟨⟨he, cx, cy, cz⟩, heq⟩ := hP
  simp only at he cx cy cz heq hp h2
  have : Fact e.f.p.Prime := ⟨hp⟩
  have : Fact (2 < e.f.p) := ⟨by have := hp.two_le; omega⟩
  obtain ⟨x, rfl⟩ := canon_iff.1 cx
  obtain ⟨y, rfl⟩ := canon_iff.1 cy
  obtain ⟨z, rfl⟩ := canon_iff.1 cz
  simp only [val_el] at heq
  simp only [Point.normalize, u32Div_el, R.ok_bind, R.fmul_ok, mul_el, R.pure_eq, R.ok.injEq, setOne_el] at h
  subst h
  refine ⟨⟨he, canon_el _, canon_el _, canon_el _⟩, ?_⟩
  simp only [val_el]
  by_cases hz : z = 0
  · subst hz
    have hx : x = 0 := by simpa using heq.symm
    subst hx
    simp
  · field_simp
    linear_combination heq

theorem mp_decode {e : Curve} (he : McOk e) {buf : List Byte} {P : Point} (h : e.decode buf = R.ok (.ok P)) :
    MpOk P := by
  simp only [Curve.decode] at h
  split at h
  · cases h
  steps h
  split at h
  · cases h
  split at h
  · split at h
    · cases h
    · steps h
      simp only [R.pure_eq, R.ok.injEq, Except.ok.injEq] at h
      subst h
      exact mp_identity he (by assumption)
  split at h
  · split at h
    · cases h
    · steps h
      split at h
      · cases h
      · steps h
        simp only [R.pure_eq, R.ok.injEq, Except.ok.injEq] at h
        subst h
        exact mp_new he (by assumption) (by red) (by red)
  split at h
  · split at h
    · cases h
    · steps h
      split at h
      all_goals
        steps h
        simp only [R.pure_eq, R.ok.injEq, Except.ok.injEq] at h
        subst h
        exact mp_new he (by assumption) (by red) (by red)
  · cases h

end

section
open Edwards

theorem etwo_le_of {o : R Curve} {e e' : Curve} (h : o = R.ok e) (h' : o = R.ok e') (hp : 2 ≤ e.f.p) : 2 ≤ e'.f.p := by
  rw [h, R.ok.injEq] at h'
  exact h' ▸ hp

theorem EisOnCurve_fields {e : Curve} {P : Point} {r : Bool} (h : e.isOnCurve P = R.ok r) :
    P.c.x.f = e.a.f ∧ P.c.y.f = e.a.f ∧ P.c.t.f = e.d.f ∧ P.c.z.f = e.d.f := by
  simp only [Curve.isOnCurve] at h
  obtain ⟨x2, hx2, h⟩ := R.bind_eq_ok.1 h
  obtain ⟨y2, hy2, h⟩ := R.bind_eq_ok.1 h
  obtain ⟨t2, ht2, h⟩ := R.bind_eq_ok.1 h
  obtain ⟨z2, hz2, h⟩ := R.bind_eq_ok.1 h
  obtain ⟨l1, hl1, h⟩ := R.bind_eq_ok.1 h
  obtain ⟨r1, hr1, h⟩ := R.bind_eq_ok.1 h
  have a1 := powU32_ok (a := P.c.x) (k := 2) hx2
  have a2 := powU32_ok (a := P.c.y) (k := 2) hy2
  have a3 := powU32_ok (a := P.c.t) (k := 2) ht2
  have a4 := powU32_ok (a := P.c.z) (k := 2) hz2
  obtain ⟨u, hu, hl1⟩ := R.bind_eq_ok.1 (show ((R.fmul (R.ok x2) (R.ok e.a)) >>= fun t => t.add y2) = _ from hl1)
  obtain ⟨v, hv, hr1⟩ := R.bind_eq_ok.1 (show ((R.fmul (R.ok t2) (R.ok e.d)) >>= fun t => t.add z2) = _ from hr1)
  have b1 := mul_ok hu
  have b2 := mul_ok hv
  have b3 := add_ok hl1
  have b4 := add_ok hr1
  exact ⟨a1.1.symm.trans b1.1, a2.1.symm.trans (b3.1.symm.trans (b1.2.1.trans b1.1)), a3.1.symm.trans b2.1,
    a4.1.symm.trans (b4.1.symm.trans (b2.2.1.trans b2.1))⟩

theorem ep_of_onCurve {e : Curve} (he : EcOk e) {c : ProyCoordinates} (hx : Red c.x) (hy : Red c.y) (ht : Red c.t)
    (hz : Red c.z) (h : e.isOnCurve ⟨e, c⟩ = R.ok true) : EpOk ⟨e, c⟩ := by
  obtain ⟨h1, h2, h3, h4⟩ := EisOnCurve_fields h
  have : NeZero e.f.p := ⟨by have := he.mod; omega⟩
  have cx : Canon e.f.p c.x := hx.canon (f := e.f) (h1.trans he.a.1)
  have cy : Canon e.f.p c.y := hy.canon (f := e.f) (h2.trans he.a.1)
  have ct : Canon e.f.p c.t := ht.canon (f := e.f) (h3.trans he.d.1)
  have cz : Canon e.f.p c.z := hz.canon (f := e.f) (h4.trans he.d.1)
  have hp : (⟨e, c⟩ : Point) = ELink.pt e (val e.f.p c.x) (val e.f.p c.y) (val e.f.p c.t) (val e.f.p c.z) := by
    simp only [ELink.pt, ← cx.eq_el, ← cy.eq_el, ← ct.eq_el, ← cz.eq_el]
  rw [hp, ELink.isOnCurve_pt he.a.eq_el he.d.eq_el, R.ok.injEq, decide_eq_true_eq] at h
  exact ⟨⟨he, cx, cy, ct, cz⟩, h.1, h.2⟩

theorem ep_newProy {e : Curve} (he : EcOk e) {c : ProyCoordinates} {P : Point} (h : e.newProyPoint c = R.ok P)
    (hx : Red c.x) (hy : Red c.y) (ht : Red c.t) (hz : Red c.z) : EpOk P := by
  obtain ⟨b, hb, h⟩ := R.bind_eq_ok.1 h
  obtain ⟨rfl, h'⟩ := doIf_ok h
  rw [R.ok.injEq] at h'
  subst h'
  exact ep_of_onCurve he hx hy ht hz hb

theorem ep_new {e : Curve} (he : EcOk e) {x y : FpElt} {P : Point} (h : e.newPoint x y = R.ok P) (hx : Red x)
    (hy : Red y) : EpOk P := by
  obtain ⟨t, ht, h⟩ := R.bind_eq_ok.1 h
  obtain ⟨o, ho, h⟩ := R.bind_eq_ok.1 h
  exact ep_newProy he (c := ⟨x, y, t, o⟩) h hx hy (fmul_red ht) (elt_ok ho).2

theorem ep_identity {e : Curve} (he : EcOk e) {P : Point} (h : e.identity = R.ok P) : EpOk P := by
  obtain ⟨a, ha, h⟩ := R.bind_eq_ok.1 h
  obtain ⟨b, hb, h⟩ := R.bind_eq_ok.1 h
  obtain ⟨c, hc, h⟩ := R.bind_eq_ok.1 h
  obtain ⟨d, hd, h⟩ := R.bind_eq_ok.1 h
  exact ep_newProy he h (elt_ok ha).2 (elt_ok hb).2 (elt_ok hc).2 (elt_ok hd).2

theorem ep_generator {e : Curve} (he : EcOk e) {P : Point} (h : e.getGenerator = R.ok P) : EpOk P := by
  obtain ⟨t, ht, h⟩ := R.bind_eq_ok.1 h
  obtain ⟨c, hc, h⟩ := R.bind_eq_ok.1 h
  exact ep_newProy he h (red_of he.gx) (red_of he.gy) (fmul_red ht) (elt_ok hc).2

theorem ep_neg {P S : Point} (hP : EpReduced P) (h : P.neg = R.ok S) : EpOk S := by
  obtain ⟨x, hx, h⟩ := R.bind_eq_ok.1 h
  obtain ⟨t, ht, h⟩ := R.bind_eq_ok.1 h
  exact ep_newProy hP.curve (c := ⟨x, P.c.y, t, P.c.z⟩) h (neg_ok hx).2 (red_of hP.y) (neg_ok ht).2 (red_of hP.z)

theorem EAddCoords_red {P Q : Point} {c : ProyCoordinates} (h : P.coreAddCoords Q = R.ok c) :
    Red c.x ∧ Red c.y ∧ Red c.t ∧ Red c.z := by
  simp only [Point.coreAddCoords] at h
  steps h
  simp only [R.pure_eq, R.ok.injEq] at h
  subst h
  exact ⟨by red, by red, by red, by red⟩

theorem ep_coreAdd {P Q S : Point} (hP : EpReduced P) (h : P.coreAdd Q = R.ok S) : EpOk S := by
  obtain ⟨c, hc, h⟩ := R.bind_eq_ok.1 h
  obtain ⟨hx, hy, ht, hz⟩ := EAddCoords_red hc
  exact ep_newProy hP.curve h hx hy ht hz

theorem ep_add {P Q S : Point} (hP : EpReduced P) (h : P.add Q = R.ok S) : EpOk S := ep_coreAdd hP (doIf_ok h).2

theorem ep_sub {P Q S : Point} (hP : EpReduced P) (h : P.sub Q = R.ok S) : EpOk S := by
  obtain ⟨_, _, h⟩ := R.bind_eq_ok.1 h
  exact ep_add hP h

theorem ep_mulLoop {P : Point} :
    ∀ (bits : List Bool) (Q S : Point), EpOk Q → P.mulLoop bits Q = R.ok S → EpOk S := by
  intro bits
  induction bits with
  | nil => intro Q S hQ h; simp only [Point.mulLoop, R.ok.injEq] at h; exact h ▸ hQ
  | cons k bits ih =>
    intro Q S hQ h
    rw [Point.mulLoop] at h
    obtain ⟨D, hD, h⟩ := R.bind_eq_ok.1 h
    have hDg := ep_add hQ.toEpReduced hD
    cases k with
    | false => exact ih D S hDg (by simpa using h)
    | true =>
      simp only [if_true] at h
      obtain ⟨T, hT, h⟩ := R.bind_eq_ok.1 h
      exact ih T S (ep_add hDg.toEpReduced hT) h

theorem ep_mul {prof : Profile} {P S : Point} {k : Scalar} (hP : EpReduced P) (h : P.mul prof k = R.ok S) : EpOk S := by
  obtain ⟨Q, hQ, h⟩ := R.bind_eq_ok.1 (doIf_ok h).2
  obtain ⟨bits, _, h⟩ := R.bind_eq_ok.1 h
  exact ep_mulLoop bits Q S (ep_identity hP.curve hQ) h

theorem ep_normalize {P S : Point} (hP : EpOk P) (hp : P.e.f.p.Prime) (h2 : P.e.f.p ≠ 2)
    (hz : P.c.z.isZero = false) (h : P.normalize = R.ok S) : EpOk S := by
  obtain ⟨e, ⟨x, y, t, z⟩⟩ := P
  obtain ⟨⟨he, cx, cy, ct, cz⟩, heq, hseg⟩ := hP
  simp only at he cx cy ct cz heq hseg hp h2 hz
  have : Fact e.f.p.Prime := ⟨hp⟩
  have : Fact (2 < e.f.p) := ⟨by have := hp.two_le; omega⟩
  obtain ⟨x, rfl⟩ := canon_iff.1 cx
  obtain ⟨y, rfl⟩ := canon_iff.1 cy
  obtain ⟨t, rfl⟩ := canon_iff.1 ct
  obtain ⟨z, rfl⟩ := canon_iff.1 cz
  have hz' : z ≠ 0 := by simpa using hz
  simp only [val_el] at heq hseg
  simp only [Point.normalize, u32Div_el, R.ok_bind, R.fmul_ok, mul_el, R.pure_eq, R.ok.injEq, setOne_el] at h
  subst h
  refine ⟨⟨he, canon_el _, canon_el _, canon_el _, canon_el _⟩, ?_, ?_⟩
  · simp only [val_el]
    field_simp
    have h4 : val e.f.p e.d * (x * y) ^ 2 = val e.f.p e.d * (t * z) ^ 2 := by rw [hseg]
    linear_combination z ^ 2 * heq - h4
  · simp only [val_el]
    ring

theorem ep_decode {e : Curve} (he : EcOk e) {buf : List Byte} {P : Point} (h : e.decode buf = R.ok (.ok P)) :
    EpOk P := by
  simp only [Curve.decode] at h
  split at h
  · cases h
  steps h
  split at h
  · cases h
  steps h
  split at h
  · cases h
  split at h
  all_goals
    steps h
    simp only [R.pure_eq, R.ok.injEq, Except.ok.injEq] at h
    subst h
    exact ep_new he (by assumption) (by red) (by red)

end

section
open Weierstrass

theorem wc_ofParams {q : Params} {e : Curve} (h : Curve.ofParams q = R.ok e) (hp : 2 ≤ e.f.p) : WcOk e := by
  simp only [Curve.ofParams] at h
  obtain ⟨p, _, h⟩ := R.bind_eq_ok.1 h
  obtain ⟨a, ha, h⟩ := R.bind_eq_ok.1 h
  obtain ⟨b, hb, h⟩ := R.bind_eq_ok.1 h
  obtain ⟨r, _, h⟩ := R.bind_eq_ok.1 h
  obtain ⟨k, _, h⟩ := R.bind_eq_ok.1 h
  obtain ⟨gx, hgx, h⟩ := R.bind_eq_ok.1 h
  obtain ⟨gy, hgy, h⟩ := R.bind_eq_ok.1 h
  simp only [R.pure_eq, R.ok.injEq] at h
  subst h
  have c := fun {c : FpElt} (h : c.f = Fp.new p ∧ Red c) => Red.canon h.2 h.1
  exact ⟨hp, c (fromStr_ok ha), c (fromStr_ok hb), c (fromStr_ok hgx), c (fromStr_ok hgy)⟩

attribute [local irreducible] Curve.newPoint Curve.newProyPoint Curve.identity

theorem sswu_new {e : Curve} {z : FpElt} {m : SSWU} (he : WcOk e) (hz : EltOk z) (h : SSWU.new e z = R.ok m) :
    WcOk m.e ∧ Canon m.e.f.p m.c1 ∧ Canon m.e.f.p m.c2 ∧ Canon m.e.f.p m.z := by
  simp only [SSWU.new] at h
  obtain ⟨v, hv, h⟩ := R.bind_eq_ok.1 h
  split at h
  · cases h
  obtain ⟨c1, hc1, h⟩ := R.bind_eq_ok.1 h
  obtain ⟨c2, hc2, h⟩ := R.bind_eq_ok.1 h
  simp only [R.pure_eq, R.ok.injEq] at h
  subst h
  simp only
  have hzf : z.f = e.f := by
    simp only [SSWU.verify] at hv
    obtain ⟨_, _, hv⟩ := R.bind_eq_ok.1 hv
    obtain ⟨_, _, hv⟩ := R.bind_eq_ok.1 hv
    obtain ⟨x, hx, hv⟩ := R.bind_eq_ok.1 hv
    obtain ⟨w, hw, hx⟩ := R.bind_eq_ok.1 (show (R.finv (R.fmul (R.ok z) (R.ok e.a)) >>= fun t => e.b.mul t) = _ from hx)
    obtain ⟨t, ht, hw⟩ := R.bind_eq_ok.1 hw
    exact (mul_ok (a := z) (b := e.a) ht).1.trans he.a.1
  obtain ⟨n, hn, hc1'⟩ := R.bind_eq_ok.1 hc1
  obtain ⟨i, hi, hc1'⟩ := R.bind_eq_ok.1 hc1'
  obtain ⟨j, hj, hc2'⟩ := R.bind_eq_ok.1 hc2
  have g1 := neg_ok (a := e.b) hn
  have g2 := mul_ok hc1'
  have g3 := u32Div_ok (a := z) (k := 1) hj
  have g4 := neg_ok hc2'
  exact ⟨he, g2.2.2.canon (g2.2.1.trans (g1.1.trans he.b.1)), g4.2.canon (g4.1.trans (g3.1.trans hzf)),
    (red_of hz.2).canon hzf⟩

theorem sswu_map {m : SSWU} {u : FpElt} {P : Point} (he : WcOk m.e) (h : m.map u = R.ok P) : WpOk P := by
  simp only [SSWU.map] at h
  steps h
  exact wp_new he h (cmov_red (by red) (by red)) (cmov_red (by red) (by red))

theorem svdw_new {e : Curve} {z : FpElt} {m : SVDW} (he : WcOk e) (hz : EltOk z) (h : SVDW.new e z = R.ok m) :
    WcOk m.e ∧ Canon m.e.f.p m.c1 ∧ Canon m.e.f.p m.c2 ∧ Canon m.e.f.p m.c3 ∧ Canon m.e.f.p m.c4 ∧
      Canon m.e.f.p m.z := by
  simp only [SVDW.new] at h
  obtain ⟨v, hv, h⟩ := R.bind_eq_ok.1 h
  split at h
  · cases h
  obtain ⟨f2, hf2, h⟩ := R.bind_eq_ok.1 h
  obtain ⟨f3, hf3, h⟩ := R.bind_eq_ok.1 h
  obtain ⟨f4, hf4, h⟩ := R.bind_eq_ok.1 h
  obtain ⟨gz, hgz, h⟩ := R.bind_eq_ok.1 h
  obtain ⟨c1, hc1, h⟩ := R.bind_eq_ok.1 h
  obtain ⟨c2, hc2, h⟩ := R.bind_eq_ok.1 h
  obtain ⟨t0, ht0, h⟩ := R.bind_eq_ok.1 h
  obtain ⟨s0, hs0, h⟩ := R.bind_eq_ok.1 h
  obtain ⟨s, hs, h⟩ := R.bind_eq_ok.1 h
  -- the field of `z`
  obtain ⟨g, hg, hgz⟩ := R.bind_eq_ok.1 hgz
  obtain ⟨t, ht, hg⟩ := R.bind_eq_ok.1 hg
  have ht' := ht
  obtain ⟨zz, hzz, ht⟩ := R.bind_eq_ok.1
    (show (R.fadd (R.fsqr (R.ok z)) (R.ok e.a) >>= fun t => z.mul t) = _ from ht)
  obtain ⟨z2, hz2, hzz⟩ := R.bind_eq_ok.1 hzz
  have k1 := powU32_ok (a := z) (k := 2) hz2
  have k2 := add_ok (a := z2) (b := e.a) hzz
  have hzf : z.f = e.f := k1.1.symm.trans (k2.1.trans he.a.1)
  have k3 := mul_ok ht
  have k4 := add_ok (a := t) (b := e.b) hg
  have k5 := neg_ok hgz
  have gzf : gz.f = e.f := k5.1.trans (k4.2.1.trans (k3.2.1.trans hzf))
  have k6 := neg_ok hc1
  obtain ⟨nz, hnz, hc2⟩ := R.bind_eq_ok.1 hc2
  obtain ⟨i2, hi2, hc2⟩ := R.bind_eq_ok.1 hc2
  have k7 := neg_ok (a := z) hnz
  have k8 := mul_ok hc2
  have k9 := mul_ok hs0
  have k10 := sqrt_ok hs
  have f4f := (elt_ok hf4).1
  have fin : ∀ (c3 : FpElt), c3.f = e.f ∧ Red c3 → (do
      let c4 ← (R.ok f4 *! R.ok gz) *! R.finv (R.ok t0)
      pure (⟨e, c1, c2, c3, c4, z⟩ : SVDW)) = R.ok m → WcOk m.e ∧ Canon m.e.f.p m.c1 ∧ Canon m.e.f.p m.c2 ∧
      Canon m.e.f.p m.c3 ∧ Canon m.e.f.p m.c4 ∧ Canon m.e.f.p m.z := by
    intro c3 h3 h
    obtain ⟨c4, hc4, h⟩ := R.bind_eq_ok.1 h
    simp only [R.pure_eq, R.ok.injEq] at h
    subst h
    obtain ⟨q, hq, hc4⟩ := R.bind_eq_ok.1 hc4
    obtain ⟨w, hw, hc4⟩ := R.bind_eq_ok.1 hc4
    have k11 := mul_ok (a := f4) (b := gz) hq
    have k12 := mul_ok hc4
    exact ⟨he, k6.2.canon (k6.1.trans gzf), k8.2.2.canon (k8.2.1.trans (k7.1.trans hzf)), h3.2.canon h3.1,
      k12.2.2.canon (k12.2.1.trans (k11.2.1.trans f4f)), (red_of hz.2).canon hzf⟩
  have sf : s.f = e.f := k10.1.trans (k9.2.1.trans gzf)
  split at h
  · obtain ⟨n, hn, h⟩ := R.bind_eq_ok.1 h
    have kn := neg_ok hn
    exact fin n ⟨kn.1.trans sf, kn.2⟩ h
  · exact fin s ⟨sf, k10.2⟩ h

theorem svdw_map {m : SVDW} {u : FpElt} {P : Point} (he : WcOk m.e) (h : m.map u = R.ok P) : WpOk P := by
  simp only [SVDW.map] at h
  steps h
  exact wp_new he h (cmov_red (cmov_red (by red) (by red)) (by red)) (cmov_red (by red) (by red))

theorem iso_push {m : IsoMap} {P Q : Point} (he : WcOk m.e1) (h : m.push P = R.ok Q) : WpOk Q := by
  simp only [IsoMap.push] at h
  steps h
  exact wp_new he h (by red) (by red)

theorem iso_secp {m : IsoMap} (h : get_isogeny_secp256k1 = R.ok m) : WcOk m.e0 ∧ WcOk m.e1 := by
  simp only [get_isogeny_secp256k1] at h
  obtain ⟨e1, h1, h⟩ := R.bind_eq_ok.1 h
  obtain ⟨_, _, h⟩ := R.bind_eq_ok.1 h
  obtain ⟨_, _, h⟩ := R.bind_eq_ok.1 h
  obtain ⟨_, _, h⟩ := R.bind_eq_ok.1 h
  obtain ⟨_, _, h⟩ := R.bind_eq_ok.1 h
  obtain ⟨e0, h0, h⟩ := R.bind_eq_ok.1 h
  simp only [R.pure_eq, R.ok.injEq] at h
  subst h
  exact ⟨wc_ofParams h0 (wtwo_le_of Redox.Inst.secp256k1_3iso_eq h0 (by decide +kernel)),
    wc_ofParams h1 (wtwo_le_of Redox.Inst.secp256k1_eq h1 (by decide +kernel))⟩

theorem iso_bls {m : IsoMap} (h : get_isogeny_bls12381g1 = R.ok m) : WcOk m.e0 ∧ WcOk m.e1 := by
  simp only [get_isogeny_bls12381g1] at h
  obtain ⟨e1, h1, h⟩ := R.bind_eq_ok.1 h
  obtain ⟨_, _, h⟩ := R.bind_eq_ok.1 h
  obtain ⟨_, _, h⟩ := R.bind_eq_ok.1 h
  obtain ⟨_, _, h⟩ := R.bind_eq_ok.1 h
  obtain ⟨_, _, h⟩ := R.bind_eq_ok.1 h
  obtain ⟨e0, h0, h⟩ := R.bind_eq_ok.1 h
  simp only [R.pure_eq, R.ok.injEq] at h
  subst h
  exact ⟨wc_ofParams h0 (wtwo_le_of Redox.Inst.bls12381g1_11iso_eq h0 (by decide +kernel)),
    wc_ofParams h1 (wtwo_le_of Redox.Inst.bls12381g1_eq h1 (by decide +kernel))⟩

theorem sswuab0_new {e : Curve} {z : FpElt} {i : IsoMap} {m : SSWUAB0} (h0 : WcOk i.e0) (h1 : WcOk i.e1)
    (hz : EltOk z) (h : SSWUAB0.new e z i.toIsogeny = R.ok m) :
    (WcOk m.sswu.e ∧ Canon m.sswu.e.f.p m.sswu.z) ∧ ∃ i : IsoMap, m.iso = i.toIsogeny ∧ WcOk i.e1 := by
  simp only [SSWUAB0.new] at h
  obtain ⟨v, _, h⟩ := R.bind_eq_ok.1 h
  split at h
  · cases h
  obtain ⟨d, hd, h⟩ := R.bind_eq_ok.1 h
  simp only [IsoMap.toIsogeny, R.ok.injEq] at hd
  subst hd
  obtain ⟨s, hs, h⟩ := R.bind_eq_ok.1 h
  simp only [R.pure_eq, R.ok.injEq] at h
  subst h
  have := sswu_new h0 hz hs
  exact ⟨⟨this.1, this.2.2.2⟩, i, rfl, h1⟩

theorem sswuab0_map {m : SSWUAB0} {u : FpElt} {P : Point} (hm : ∃ i : IsoMap, m.iso = i.toIsogeny ∧ WcOk i.e1)
    (h : m.map u = R.ok P) : WpOk P := by
  obtain ⟨i, hi, h1⟩ := hm
  obtain ⟨Q, _, h⟩ := R.bind_eq_ok.1 h
  rw [hi] at h
  exact iso_push (m := i) h1 h

end

section
open Montgomery

theorem mc_ofParams {q : Params} {e : Curve} (h : Curve.ofParams q = R.ok e) (hp : 2 ≤ e.f.p) : McOk e := by
  simp only [Curve.ofParams] at h
  obtain ⟨p, _, h⟩ := R.bind_eq_ok.1 h
  obtain ⟨a, ha, h⟩ := R.bind_eq_ok.1 h
  obtain ⟨b, hb, h⟩ := R.bind_eq_ok.1 h
  obtain ⟨s, hs, h⟩ := R.bind_eq_ok.1 h
  obtain ⟨r, _, h⟩ := R.bind_eq_ok.1 h
  obtain ⟨k, _, h⟩ := R.bind_eq_ok.1 h
  obtain ⟨gx, hgx, h⟩ := R.bind_eq_ok.1 h
  obtain ⟨gy, hgy, h⟩ := R.bind_eq_ok.1 h
  simp only [R.pure_eq, R.ok.injEq] at h
  subst h
  have c := fun {c : FpElt} (h : c.f = Fp.new p ∧ Red c) => Red.canon h.2 h.1
  exact ⟨hp, c (fromStr_ok ha), c (fromStr_ok hb), c (fromStr_ok hs), c (fromStr_ok hgx), c (fromStr_ok hgy)⟩

attribute [local irreducible] Curve.newPoint Curve.newProyPoint Curve.identity

theorem mell2_new {e : Curve} {z : FpElt} {m : Ell2} (he : McOk e) (hz : EltOk z) (h : Ell2.new e z = R.ok m) :
    McOk m.e ∧ Canon m.e.f.p m.ca ∧ Canon m.e.f.p m.cb ∧ EltOk m.z := by
  simp only [Ell2.new] at h
  split at h
  · cases h
  obtain ⟨i, hi, h⟩ := R.bind_eq_ok.1 h
  obtain ⟨a, ha, h⟩ := R.bind_eq_ok.1 h
  obtain ⟨b, hb, h⟩ := R.bind_eq_ok.1 h
  simp only [R.pure_eq, R.ok.injEq] at h
  subst h
  have k1 := u32Div_ok (a := e.b) (k := 1) hi
  have k2 := div_ok (a := e.a) (b := i) ha
  have k3 := powU32_ok (a := i) (k := 2) hb
  exact ⟨he, k2.2.2.canon (k2.2.1.trans he.a.1), k3.2.canon (k3.1.trans (k1.1.trans he.b.1)), hz⟩

theorem mell2_map {m : Ell2} {u : FpElt} {P : Point} (he : McOk m.e) (h : m.map u = R.ok P) : MpOk P := by
  simp only [Ell2.map] at h
  steps h
  exact mp_new he h (by red) (by red)

theorem push25519 {m : Ed2Mt25519} {P : Edwards.Point} {Q : Point} (he : McOk m.e1) (h : m.push P = R.ok Q) :
    MpOk Q := by
  simp only [Ed2Mt25519.push] at h
  split at h
  · exact mp_identity he h
  · steps h
    exact mp_newProy he h (by red) (by red) (by red)

theorem push448 {m : Ed4isoMt448} {P : Edwards.Point} {Q : Point} (he : McOk m.e1) (h : m.push P = R.ok Q) :
    MpOk Q := by
  simp only [Ed4isoMt448.push] at h
  split at h
  · exact mp_identity he h
  · steps h
    exact mp_newProy he h (by red) (by red) (by red)

end

section
open Edwards

theorem ec_ofParams {q : Params} {e : Curve} (h : Curve.ofParams q = R.ok e) (hp : 2 ≤ e.f.p) : EcOk e := by
  simp only [Curve.ofParams] at h
  obtain ⟨p, _, h⟩ := R.bind_eq_ok.1 h
  obtain ⟨a, ha, h⟩ := R.bind_eq_ok.1 h
  obtain ⟨b, hb, h⟩ := R.bind_eq_ok.1 h
  obtain ⟨r, _, h⟩ := R.bind_eq_ok.1 h
  obtain ⟨k, _, h⟩ := R.bind_eq_ok.1 h
  obtain ⟨gx, hgx, h⟩ := R.bind_eq_ok.1 h
  obtain ⟨gy, hgy, h⟩ := R.bind_eq_ok.1 h
  simp only [R.pure_eq, R.ok.injEq] at h
  subst h
  have c := fun {c : FpElt} (h : c.f = Fp.new p ∧ Red c) => Red.canon h.2 h.1
  exact ⟨hp, c (fromStr_ok ha), c (fromStr_ok hb), c (fromStr_ok hgx), c (fromStr_ok hgy)⟩

theorem rat25519 {m : Ed2Mt25519} (h : edwards25519_to_curve25519 = R.ok m) :
    EcOk m.e0 ∧ McOk m.e1 ∧ EltOk m.invsqr_d := by
  simp only [edwards25519_to_curve25519] at h
  obtain ⟨e0, h0, h⟩ := R.bind_eq_ok.1 h
  obtain ⟨e1, h1, h⟩ := R.bind_eq_ok.1 h
  obtain ⟨d, hd, h⟩ := R.bind_eq_ok.1 h
  simp only [R.pure_eq, R.ok.injEq] at h
  subst h
  have k0 := ec_ofParams h0 (etwo_le_of Redox.Inst.edwards25519_eq h0 (by decide +kernel))
  have k1 := fromStr_ok hd
  refine ⟨k0, mc_ofParams h1 (mtwo_le_of Redox.Inst.curve25519_eq h1 (by decide +kernel)), ?_, k1.2.canon rfl⟩
  rw [k1.1]
  exact k0.mod

theorem rat448 {m : Ed4isoMt448} (h : edwards448_to_curve448 = R.ok m) : EcOk m.e0 ∧ McOk m.e1 := by
  simp only [edwards448_to_curve448] at h
  obtain ⟨e0, h0, h⟩ := R.bind_eq_ok.1 h
  obtain ⟨e1, h1, h⟩ := R.bind_eq_ok.1 h
  simp only [R.pure_eq, R.ok.injEq] at h
  subst h
  exact ⟨ec_ofParams h0 (etwo_le_of Redox.Inst.edwards448_eq h0 (by decide +kernel)),
    mc_ofParams h1 (mtwo_le_of Redox.Inst.curve448_eq h1 (by decide +kernel))⟩

attribute [local irreducible] Curve.newPoint Curve.newProyPoint Curve.identity

theorem pull25519 {m : Ed2Mt25519} {P : Montgomery.Point} {Q : Point} (he : EcOk m.e0) (h : m.pull P = R.ok Q) :
    EpOk Q := by
  simp only [Ed2Mt25519.pull] at h
  split at h
  · exact ep_identity he h
  split at h
  · steps h
    exact ep_newProy he h (by red) (by red) (by red) (by red)
  · steps h
    exact ep_newProy he h (by red) (by red) (by red) (by red)

theorem pull448 {m : Ed4isoMt448} {P : Montgomery.Point} {Q : Point} (he : EcOk m.e0) (h : m.pull P = R.ok Q) :
    EpOk Q := by
  simp only [Ed4isoMt448.pull] at h
  split at h
  · exact ep_identity he h
  · steps h
    exact ep_newProy he h (by red) (by red) (by red) (by red)

theorem eell2_new {e : Curve} {z : FpElt} {r : RationalMap} {e1 : Montgomery.Curve} {m : Ell2}
    (hr : r.codomain = R.ok e1) (he : McOk e1) (hz : EltOk z) (h : Ell2.new e z (some r) = R.ok m) :
    McOk m.mapToCurve.e ∧ m.ratmap = r := by
  simp only [Ell2.new] at h
  obtain ⟨d, _, h⟩ := R.bind_eq_ok.1 h
  split at h
  · cases h
  obtain ⟨c, hc, h⟩ := R.bind_eq_ok.1 h
  rw [hr, R.ok.injEq] at hc
  subst hc
  obtain ⟨t, ht, h⟩ := R.bind_eq_ok.1 h
  simp only [R.pure_eq, R.ok.injEq] at h
  subst h
  exact ⟨(mell2_new he hz ht).1, rfl⟩

theorem eell2_map {m : Ell2} {u : FpElt} {P : Point}
    (hm : (∃ r : Ed2Mt25519, m.ratmap = r.toRationalMap ∧ EcOk r.e0) ∨
      ∃ r : Ed4isoMt448, m.ratmap = r.toRationalMap ∧ EcOk r.e0)
    (h : m.map u = R.ok P) : EpOk P := by
  obtain ⟨Q, _, h⟩ := R.bind_eq_ok.1 h
  rcases hm with ⟨r, hr, h0⟩ | ⟨r, hr, h0⟩
  · rw [hr] at h
    exact pull25519 (m := r) h0 h
  · rw [hr] at h
    exact pull448 (m := r) h0 h

end

section scalars

theorem scalar_new {k : ℤ} {r : ℕ} {s : Scalar} (h : Scalar.new k r = R.ok s) : 0 ≤ s.k ∧ s.k < s.r := by
  obtain ⟨m, hm, h⟩ := R.bind_eq_ok.1 h
  simp only [R.pure_eq, R.ok.injEq] at h
  subst h
  exact modFloor_ok hm (by positivity)

theorem scalar_red {a s : Scalar} {k : ℤ} (ha : 0 ≤ a.k ∧ a.k < a.r) (h : a.red k = R.ok s) : 0 ≤ s.k ∧ s.k < s.r := by
  obtain ⟨m, hm, h⟩ := R.bind_eq_ok.1 h
  simp only [R.pure_eq, R.ok.injEq] at h
  subst h
  exact modFloor_ok hm (ha.1.trans ha.2.le)

theorem scalar_inv {a s : Scalar} (ha : 0 ≤ a.k ∧ a.k < a.r) (h : a.invMod = R.ok s) : 0 ≤ s.k ∧ s.k < s.r := by
  obtain ⟨_, _, h⟩ := R.bind_eq_ok.1 h
  exact scalar_red ha h

end scalars

section quadratic

/-- The invariant of quadratic-field elements. -/
def Ok2 (x : Fp2Elt) : Prop := 2 ≤ x.f.base.p ∧ Canon2 x.f.base.p x

theorem ok2_mk {n0 n1 : FpElt} {f : Fp2} (hp : 2 ≤ f.base.p) (h0 : n0.f = f.base ∧ Red n0) (h1 : n1.f = f.base ∧ Red n1) :
    Ok2 ⟨n0, n1, f⟩ := ⟨hp, rfl, h0.2.canon h0.1, h1.2.canon h1.1⟩

theorem ok2_elt {f : Fp2} {n : ℤ} {x : Fp2Elt} (hp : 2 ≤ f.base.p) (h : f.elt n = R.ok x) : Ok2 x := by
  obtain ⟨a, ha, h⟩ := R.bind_eq_ok.1 h
  obtain ⟨b, hb, h⟩ := R.bind_eq_ok.1 h
  simp only [R.pure_eq, R.ok.injEq] at h
  subst h
  exact ok2_mk hp (elt_ok ha) (elt_ok hb)

theorem ok2_fromStr {f : Fp2} {s : List Byte} {x : Fp2Elt} (hp : 2 ≤ f.base.p) (h : f.fromStr s = R.ok x) : Ok2 x := by
  simp only [Fp2.fromStr] at h
  obtain ⟨a, ha, h⟩ := R.bind_eq_ok.1 h
  split at h
  · cases h
  obtain ⟨b, hb, h⟩ := R.bind_eq_ok.1 h
  simp only [R.pure_eq, R.ok.injEq] at h
  subst h
  exact ok2_mk hp (fromStr_ok ha) (fromStr_ok hb)

theorem ok2_fromBytesBE {f : Fp2} {s : List Byte} {x : Fp2Elt} (hp : 2 ≤ f.base.p)
    (h : f.fromBytesBE s = R.ok (some x)) : Ok2 x := by
  simp only [Fp2.fromBytesBE] at h
  split at h
  · cases h
  obtain ⟨_, _, h⟩ := R.bind_eq_ok.1 h
  obtain ⟨a, ha, h⟩ := R.bind_eq_ok.1 h
  obtain ⟨_, _, h⟩ := R.bind_eq_ok.1 h
  obtain ⟨b, hb, h⟩ := R.bind_eq_ok.1 h
  simp only [R.pure_eq, R.ok.injEq, Option.some.injEq] at h
  subst h
  exact ok2_mk hp (elt_ok ha) (elt_ok hb)

theorem ok2_fromBytesLE {f : Fp2} {s : List Byte} {x : Fp2Elt} (hp : 2 ≤ f.base.p)
    (h : f.fromBytesLE s = R.ok (some x)) : Ok2 x := by
  simp only [Fp2.fromBytesLE] at h
  split at h
  · cases h
  obtain ⟨_, _, h⟩ := R.bind_eq_ok.1 h
  obtain ⟨a, ha, h⟩ := R.bind_eq_ok.1 h
  obtain ⟨_, _, h⟩ := R.bind_eq_ok.1 h
  obtain ⟨b, hb, h⟩ := R.bind_eq_ok.1 h
  simp only [R.pure_eq, R.ok.injEq, Option.some.injEq] at h
  subst h
  exact ok2_mk hp (elt_ok ha) (elt_ok hb)

theorem Ok2.f0 {x : Fp2Elt} (h : Ok2 x) : x.n0.f = x.f.base := h.2.2.1.1
theorem Ok2.f1 {x : Fp2Elt} (h : Ok2 x) : x.n1.f = x.f.base := h.2.2.2.1

theorem ok2_add {x y z : Fp2Elt} (hx : Ok2 x) (h : x.add y = R.ok z) : Ok2 z := by
  obtain ⟨_, h⟩ := doIf_ok h
  obtain ⟨a, ha, h⟩ := R.bind_eq_ok.1 h
  obtain ⟨b, hb, h⟩ := R.bind_eq_ok.1 h
  simp only [R.pure_eq, R.ok.injEq] at h
  subst h
  have k1 := add_ok (a := x.n0) (b := y.n0) ha
  have k2 := add_ok (a := x.n1) (b := y.n1) hb
  exact ok2_mk hx.1 ⟨k1.2.1.trans hx.f0, k1.2.2⟩ ⟨k2.2.1.trans hx.f1, k2.2.2⟩

theorem ok2_sub {x y z : Fp2Elt} (hx : Ok2 x) (h : x.sub y = R.ok z) : Ok2 z := by
  obtain ⟨_, h⟩ := doIf_ok h
  obtain ⟨a, ha, h⟩ := R.bind_eq_ok.1 h
  obtain ⟨b, hb, h⟩ := R.bind_eq_ok.1 h
  simp only [R.pure_eq, R.ok.injEq] at h
  subst h
  have k1 := sub_ok (a := x.n0) (b := y.n0) ha
  have k2 := sub_ok (a := x.n1) (b := y.n1) hb
  exact ok2_mk hx.1 ⟨k1.2.1.trans hx.f0, k1.2.2⟩ ⟨k2.2.1.trans hx.f1, k2.2.2⟩

theorem ok2_mul {x y z : Fp2Elt} (hx : Ok2 x) (h : x.mul y = R.ok z) : Ok2 z := by
  obtain ⟨_, h⟩ := doIf_ok h
  obtain ⟨a, ha, h⟩ := R.bind_eq_ok.1 h
  obtain ⟨b, hb, h⟩ := R.bind_eq_ok.1 h
  simp only [R.pure_eq, R.ok.injEq] at h
  subst h
  obtain ⟨a1, ha1, ha⟩ := R.bind_eq_ok.1 ha
  obtain ⟨a2, _, ha⟩ := R.bind_eq_ok.1 ha
  obtain ⟨b1, hb1, hb⟩ := R.bind_eq_ok.1 hb
  obtain ⟨b2, _, hb⟩ := R.bind_eq_ok.1 hb
  have k1 := mul_ok (a := x.n0) (b := y.n0) ha1
  have k2 := mul_ok (a := x.n0) (b := y.n1) hb1
  have k3 := sub_ok ha
  have k4 := add_ok hb
  exact ok2_mk hx.1 ⟨k3.2.1.trans (k1.2.1.trans hx.f0), k3.2.2⟩ ⟨k4.2.1.trans (k2.2.1.trans hx.f0), k4.2.2⟩

theorem ok2_inv {x z : Fp2Elt} (hx : Ok2 x) (h : x.invMod = R.ok z) : Ok2 z := by
  obtain ⟨d, hd, h⟩ := R.bind_eq_ok.1 h
  obtain ⟨a, ha, h⟩ := R.bind_eq_ok.1 h
  obtain ⟨b, hb, h⟩ := R.bind_eq_ok.1 h
  simp only [R.pure_eq, R.ok.injEq] at h
  subst h
  have k1 := mul_ok (a := d) (b := x.n0) ha
  have k2 := mul_ok (a := d) (b := x.n1) hb
  exact ok2_mk hx.1 ⟨k1.2.1.trans (k1.1.trans hx.f0), k1.2.2⟩ ⟨k2.2.1.trans (k2.1.trans hx.f1), k2.2.2⟩

theorem ok2_neg {x z : Fp2Elt} (hx : Ok2 x) (h : x.neg = R.ok z) : Ok2 z := by
  obtain ⟨a, ha, h⟩ := R.bind_eq_ok.1 h
  obtain ⟨b, hb, h⟩ := R.bind_eq_ok.1 h
  simp only [R.pure_eq, R.ok.injEq] at h
  subst h
  have k1 := neg_ok ha
  have k2 := neg_ok hb
  exact ok2_mk hx.1 ⟨k1.1.trans hx.f0, k1.2⟩ ⟨k2.1.trans hx.f1, k2.2⟩

theorem powNat2_panics (x : Fp2Elt) (k : ℕ) : x.powNat k = R.panic .unimplemented := rfl

theorem powInt2_panics {x z : Fp2Elt} {k : ℤ} (h : x.powInt k = R.ok z) : False := by
  obtain ⟨_, _, h⟩ := R.bind_eq_ok.1 h
  rw [powNat2_panics] at h
  cases h

theorem sqrt2_panics {x z : Fp2Elt} (h : x.sqrt = R.ok z) : False := by
  obtain ⟨_, _, h⟩ := R.bind_eq_ok.1 h
  obtain ⟨_, h', h⟩ := R.bind_eq_ok.1 h
  exact powInt2_panics h'

end quadratic

theorem setZero_ok {x : FpElt} {p : ℕ} (hp : 2 ≤ p) (h : Canon p x) : Canon p x.setZero :=
  ⟨h.1, le_refl _, by simp only [FpElt.setZero]; omega⟩

theorem setOne_ok {x : FpElt} {p : ℕ} (hp : 2 ≤ p) (h : Canon p x) : Canon p x.setOne :=
  ⟨h.1, by simp [FpElt.setOne], by simp only [FpElt.setOne]; omega⟩

theorem eltOk_of {x : FpElt} {f : Fp} (hp : 2 ≤ f.p) (h : x.f = f ∧ Red x) : EltOk x := by
  obtain ⟨rfl, h⟩ := h
  exact ⟨hp, h.canon rfl⟩

theorem one_pow_inv {p : ℕ} [Fact (1 < p)] : FpElt.u32Div 1 (el (1 : ZMod p)) = R.ok (el (1 : ZMod p)) := by
  simp only [FpElt.u32Div, doIfEq, FpElt.invMod, beq_self_eq_true, if_true]
  rw [powInt_el, one_pow]

theorem inv_total {p : ℕ} [Fact (1 < p)] (z : ZMod p) : ∃ i : ZMod p, FpElt.u32Div 1 (el z) = R.ok (el i) :=
  ⟨_, by simp only [FpElt.u32Div, doIfEq, FpElt.invMod]; exact powInt_el _ _⟩

theorem wp_red {P : Weierstrass.Point} (h : WellFormed (.wp P)) : WpReduced P := by
  rcases h with h | ⟨h, -⟩
  · exact h.toWpReduced
  · exact h

/-- The result of `normalize` has reduced coordinates, and normalizing it again changes nothing. -/
theorem wp_normalize_red {P S : Weierstrass.Point} (hP : WpReduced P) (h : P.normalize = R.ok S) :
    WpReduced S ∧ S.normalize = R.ok S := by
  obtain ⟨e, ⟨x, y, z⟩⟩ := P
  obtain ⟨he, cx, cy, cz⟩ := hP
  have hp := he.mod
  simp only at he cx cy cz hp
  have : Fact (1 < e.f.p) := ⟨hp⟩
  have : NeZero e.f.p := ⟨by omega⟩
  obtain ⟨x, rfl⟩ := canon_iff.1 cx
  obtain ⟨y, rfl⟩ := canon_iff.1 cy
  obtain ⟨z, rfl⟩ := canon_iff.1 cz
  obtain ⟨i, hi⟩ := inv_total z
  simp only [Weierstrass.Point.normalize, hi, R.ok_bind, R.fmul_ok, mul_el, R.pure_eq, R.ok.injEq, setOne_el] at h
  subst h
  exact ⟨⟨he, canon_el _, canon_el _, canon_el _⟩, by
    simp only [Weierstrass.Point.normalize, one_pow_inv, R.ok_bind, R.fmul_ok, mul_el, R.pure_eq, setOne_el, mul_one]⟩

theorem wp_normalize_wf {P S : Weierstrass.Point} (hA : Api (.wp P)) (hP : WellFormed (.wp P))
    (h : P.normalize = R.ok S) : WellFormed (.wp S) := by
  obtain ⟨hS, hid⟩ := wp_normalize_red (wp_red hP) h
  rcases hP with hP | ⟨hR, hN, Q, aQ, hQ, hc⟩
  · by_cases hp : P.e.f.p.Prime ∧ P.e.f.p ≠ 2
    · by_cases hz : P.c.z.isZero = true
      · exact .inr ⟨hS, hid, P, hA, h, .inl hz⟩
      · exact .inl (wp_normalize hP hp.1 hp.2 (by simpa using hz) h)
    · exact .inr ⟨hS, hid, P, hA, h, .inr hp⟩
  · rw [hN, R.ok.injEq] at h
    subst h
    exact .inr ⟨hR, hN, Q, aQ, hQ, hc⟩

theorem mp_red {P : Montgomery.Point} (h : WellFormed (.mp P)) : MpReduced P := by
  rcases h with h | ⟨h, -⟩
  · exact h.toMpReduced
  · exact h

/-- The result of `normalize` has reduced coordinates, and normalizing it again changes nothing. -/
theorem mp_normalize_red {P S : Montgomery.Point} (hP : MpReduced P) (h : P.normalize = R.ok S) :
    MpReduced S ∧ S.normalize = R.ok S := by
  obtain ⟨e, ⟨x, y, z⟩⟩ := P
  obtain ⟨he, cx, cy, cz⟩ := hP
  have hp := he.mod
  simp only at he cx cy cz hp
  have : Fact (1 < e.f.p) := ⟨hp⟩
  have : NeZero e.f.p := ⟨by omega⟩
  obtain ⟨x, rfl⟩ := canon_iff.1 cx
  obtain ⟨y, rfl⟩ := canon_iff.1 cy
  obtain ⟨z, rfl⟩ := canon_iff.1 cz
  obtain ⟨i, hi⟩ := inv_total z
  simp only [Montgomery.Point.normalize, hi, R.ok_bind, R.fmul_ok, mul_el, R.pure_eq, R.ok.injEq, setOne_el] at h
  subst h
  exact ⟨⟨he, canon_el _, canon_el _, canon_el _⟩, by
    simp only [Montgomery.Point.normalize, one_pow_inv, R.ok_bind, R.fmul_ok, mul_el, R.pure_eq, setOne_el, mul_one]⟩

theorem mp_normalize_wf {P S : Montgomery.Point} (hA : Api (.mp P)) (hP : WellFormed (.mp P))
    (h : P.normalize = R.ok S) : WellFormed (.mp S) := by
  obtain ⟨hS, hid⟩ := mp_normalize_red (mp_red hP) h
  rcases hP with hP | ⟨hR, hN, Q, aQ, hQ, hc⟩
  · by_cases hp : P.e.f.p.Prime ∧ P.e.f.p ≠ 2
    · exact .inl (mp_normalize hP hp.1 hp.2 h)
    · exact .inr ⟨hS, hid, P, hA, h, hp⟩
  · rw [hN, R.ok.injEq] at h
    subst h
    exact .inr ⟨hR, hN, Q, aQ, hQ, hc⟩

theorem ep_red {P : Edwards.Point} (h : WellFormed (.ep P)) : EpReduced P := by
  rcases h with h | ⟨h, -⟩
  · exact h.toEpReduced
  · exact h

/-- The result of `normalize` has reduced coordinates, and normalizing it again changes nothing. -/
theorem ep_normalize_red {P S : Edwards.Point} (hP : EpReduced P) (h : P.normalize = R.ok S) :
    EpReduced S ∧ S.normalize = R.ok S := by
  obtain ⟨e, ⟨x, y, t, z⟩⟩ := P
  obtain ⟨he, cx, cy, -, cz⟩ := hP
  have hp := he.mod
  simp only at he cx cy cz hp
  have : Fact (1 < e.f.p) := ⟨hp⟩
  have : NeZero e.f.p := ⟨by omega⟩
  obtain ⟨x, rfl⟩ := canon_iff.1 cx
  obtain ⟨y, rfl⟩ := canon_iff.1 cy
  obtain ⟨z, rfl⟩ := canon_iff.1 cz
  obtain ⟨i, hi⟩ := inv_total z
  simp only [Edwards.Point.normalize, hi, R.ok_bind, R.fmul_ok, mul_el, R.pure_eq, R.ok.injEq, setOne_el] at h
  subst h
  exact ⟨⟨he, canon_el _, canon_el _, canon_el _, canon_el _⟩, by
    simp only [Edwards.Point.normalize, one_pow_inv, R.ok_bind, R.fmul_ok, mul_el, R.pure_eq, setOne_el, mul_one]⟩

theorem ep_normalize_wf {P S : Edwards.Point} (hA : Api (.ep P)) (hP : WellFormed (.ep P))
    (h : P.normalize = R.ok S) : WellFormed (.ep S) := by
  obtain ⟨hS, hid⟩ := ep_normalize_red (ep_red hP) h
  rcases hP with hP | ⟨hR, hN, Q, aQ, hQ, hc⟩
  · by_cases hp : P.e.f.p.Prime ∧ P.e.f.p ≠ 2
    · by_cases hz : P.c.z.isZero = true
      · exact .inr ⟨hS, hid, P, hA, h, .inl hz⟩
      · exact .inl (ep_normalize hP hp.1 hp.2 (by simpa using hz) h)
    · exact .inr ⟨hS, hid, P, hA, h, .inr hp⟩
  · rw [hN, R.ok.injEq] at h
    subst h
    exact .inr ⟨hR, hN, Q, aQ, hQ, hc⟩

theorem wellFormed (v : Val) (h : Api v) : WellFormed v := by
  induction h with
  | fpNew p hp => exact hp
  | elt n _ h ih => exact eltOk_of ih (elt_ok h)
  | zero _ h ih => exact eltOk_of ih (elt_ok h)
  | one _ h ih => exact eltOk_of ih (elt_ok h)
  | fromPrim n _ h ih => exact eltOk_of ih (elt_ok h)
  | fromStr s _ h ih => exact eltOk_of ih (fromStr_ok h)
  | fromBytesBE s _ h ih => exact eltOk_of ih (elt_ok h)
  | fromBytesLE s _ h ih => exact eltOk_of ih (elt_ok h)
  | add _ _ h ih _ => exact eltOk_of ih.1 (add_ok h).2
  | sub _ _ h ih _ => exact eltOk_of ih.1 (sub_ok h).2
  | mul _ _ h ih _ => exact eltOk_of ih.1 (mul_ok h).2
  | div _ _ h ih _ => exact eltOk_of ih.1 (div_ok h).2
  | neg _ h ih => exact eltOk_of ih.1 (neg_ok h)
  | powU32 k _ h ih => exact eltOk_of ih.1 (powU32_ok h)
  | powI32 k _ h ih => exact eltOk_of ih.1 (powI32_ok h)
  | u32Div k _ h ih => exact eltOk_of ih.1 (u32Div_ok h)
  | powNat k _ h ih => exact eltOk_of ih.1 (powNat_ok h)
  | powInt k _ h ih => exact eltOk_of ih.1 (powInt_ok h)
  | sqrt _ h ih => exact eltOk_of ih.1 (sqrt_ok h)
  | cmov b _ _ ihx ihy => cases b <;> assumption
  | setZero _ ih => exact ⟨ih.1, setZero_ok ih.1 ih.2⟩
  | setOne _ ih => exact ⟨ih.1, setOne_ok ih.1 ih.2⟩
  | fp2New p hp => exact hp
  | elt2 n _ h ih => exact ok2_elt ih h
  | zero2 _ h ih => exact ok2_elt ih h
  | one2 _ h ih => exact ok2_elt ih h
  | fromStr2 s _ h ih => exact ok2_fromStr ih h
  | fromBytesBE2 s _ h ih => exact ok2_fromBytesBE ih h
  | fromBytesLE2 s _ h ih => exact ok2_fromBytesLE ih h
  | add2 _ _ h ih _ => exact ok2_add ih h
  | sub2 _ _ h ih _ => exact ok2_sub ih h
  | mul2 _ _ h ih _ => exact ok2_mul ih h
  | div2 _ _ h ih _ =>
    obtain ⟨_, _, h⟩ := R.bind_eq_ok.1 h
    exact ok2_mul ih h
  | neg2 _ h ih => exact ok2_neg ih h
  | powU322 k _ h ih => exact ok2_mul ih (doIf_ok h).2
  | powI322 k _ h ih => exact ok2_inv ih (doIf_ok h).2
  | u32Div2 k _ h ih => exact ok2_inv ih (doIf_ok h).2
  | powNat2 k _ h ih =>
    rw [powNat2_panics] at h
    cases h
  | powInt2 k _ h ih => exact (powInt2_panics h).elim
  | sqrt2 _ h ih => exact (sqrt2_panics h).elim
  | cmov2 b _ _ ihx ihy => cases b <;> assumption
  | setZero2 _ ih => exact ⟨ih.1, ih.2.1, setZero_ok ih.1 ih.2.2.1, setZero_ok ih.1 ih.2.2.2⟩
  | setOne2 _ ih => exact ⟨ih.1, ih.2.1, setOne_ok ih.1 ih.2.2.1, setZero_ok ih.1 ih.2.2.2⟩
  | scNew k r h => exact scalar_new h
  | scAdd _ _ h ih _ => exact scalar_red ih (doIf_ok h).2
  | scSub _ _ h ih _ => exact scalar_red ih (doIf_ok h).2
  | scMul _ _ h ih _ => exact scalar_red ih (doIf_ok h).2
  | scDiv _ _ h ih _ =>
    obtain ⟨_, _, h⟩ := R.bind_eq_ok.1 h
    exact scalar_red ih (doIf_ok h).2
  | scNeg _ h ih => exact scalar_red ih h
  | scU32Div c _ h ih => exact scalar_inv ih (doIf_ok h).2
  | wcNew q h hp => exact wc_ofParams h hp
  | wcField _ ih => exact ih.mod
  | wcScalar k _ h ih => exact scalar_new h
  | wcPoint _ _ _ h ih ix iy => exact .inl (wp_new ih h (red_of ix.2) (red_of iy.2))
  | wcIdentity _ h ih => exact .inl (wp_identity ih h)
  | wcGenerator _ h ih => exact .inl (wp_generator ih h)
  | wcDecode buf _ h ih => exact .inl (wp_decode ih h)
  | wpNeg _ h ih => exact .inl (wp_neg (wp_red ih) h)
  | wpAdd _ _ h ih _ => exact .inl (wp_add (wp_red ih) h)
  | wpSub _ _ h ih _ => exact .inl (wp_sub (wp_red ih) h)
  | wpMul prof _ _ h ih _ => exact .inl (wp_mul (wp_red ih) h)
  | wpNormalize hA h ih => exact wp_normalize_wf hA ih h
  | mcNew q h hp => exact mc_ofParams h hp
  | mcField _ ih => exact ih.mod
  | mcScalar k _ h ih => exact scalar_new h
  | mcPoint _ _ _ h ih ix iy => exact .inl (mp_new ih h (red_of ix.2) (red_of iy.2))
  | mcIdentity _ h ih => exact .inl (mp_identity ih h)
  | mcGenerator _ h ih => exact .inl (mp_generator ih h)
  | mcDecode buf _ h ih => exact .inl (mp_decode ih h)
  | mpNeg _ h ih => exact .inl (mp_neg (mp_red ih) h)
  | mpAdd _ _ h ih _ => exact .inl (mp_add (mp_red ih) h)
  | mpSub _ _ h ih _ => exact .inl (mp_sub (mp_red ih) h)
  | mpMul prof _ _ h ih _ => exact .inl (mp_mul (mp_red ih) h)
  | mpNormalize hA h ih => exact mp_normalize_wf hA ih h
  | ecNew q h hp => exact ec_ofParams h hp
  | ecField _ ih => exact ih.mod
  | ecScalar k _ h ih => exact scalar_new h
  | ecPoint _ _ _ h ih ix iy => exact .inl (ep_new ih h (red_of ix.2) (red_of iy.2))
  | ecIdentity _ h ih => exact .inl (ep_identity ih h)
  | ecGenerator _ h ih => exact .inl (ep_generator ih h)
  | ecDecode buf _ h ih => exact .inl (ep_decode ih h)
  | epNeg _ h ih => exact .inl (ep_neg (ep_red ih) h)
  | epAdd _ _ h ih _ => exact .inl (ep_add (ep_red ih) h)
  | epSub _ _ h ih _ => exact .inl (ep_sub (ep_red ih) h)
  | epMul prof _ _ h ih _ => exact .inl (ep_mul (ep_red ih) h)
  | epNormalize hA h ih => exact ep_normalize_wf hA ih h
  | sswuNew _ _ h ih iz => exact sswu_new ih iz h
  | sswuMap _ _ h ih _ => exact .inl (sswu_map ih.1 h)
  | svdwNew _ _ h ih iz => exact svdw_new ih iz h
  | svdwMap _ _ h ih _ => exact .inl (svdw_map ih.1 h)
  | mell2New _ _ h ih iz => exact mell2_new ih iz h
  | mell2Map _ _ h ih _ => exact .inl (mell2_map ih.1 h)
  | isoSecp h => exact iso_secp h
  | isoBls h => exact iso_bls h
  | isoDomain _ h ih => cases h; exact ih.1
  | isoCodomain _ h ih => cases h; exact ih.2
  | isoPush _ _ h ih _ => exact .inl (iso_push ih.2 h)
  | sswuab0New _ _ _ h ih _ iz => exact sswuab0_new ih.1 ih.2 iz h
  | sswuab0Map _ _ h ih _ => exact .inl (sswuab0_map ih.2 h)
  | rat25519 h => exact rat25519 h
  | rat448 h => exact rat448 h
  | domain25519 _ h ih => cases h; exact ih.1
  | domain448 _ h ih => cases h; exact ih.1
  | codomain25519 _ h ih => cases h; exact ih.2.1
  | codomain448 _ h ih => cases h; exact ih.2
  | push25519 _ _ h ih _ => exact .inl (push25519 ih.2.1 h)
  | push448 _ _ h ih _ => exact .inl (push448 ih.2 h)
  | pull25519 _ _ h ih _ => exact .inl (pull25519 ih.1 h)
  | pull448 _ _ h ih _ => exact .inl (pull448 ih.1 h)
  | eell2New25519 _ _ _ h ih _ iz =>
    have := eell2_new rfl ih.2.1 iz h
    exact ⟨this.1, .inl ⟨_, this.2, ih.1⟩⟩
  | eell2New448 _ _ _ h ih _ iz =>
    have := eell2_new rfl ih.2 iz h
    exact ⟨this.1, .inr ⟨_, this.2, ih.1⟩⟩
  | eell2Map _ _ h ih _ => exact .inl (eell2_map ih.2 h)

/-- C84. Whatever sequence of public calls produced it, every value a user holds is well formed: field elements are
reduced, scalars lie in `0 .. r-1`, curve constants belong to the curve's field, and every point satisfies its curve's
equation, the only exceptions being direct results of `normalize` on points at infinity or over moduli that are not odd
primes. No primality is assumed otherwise. -/
theorem _root_.Redox.Props.C84_invariant (v : Val) (h : Api v) : WellFormed v := wellFormed v h

section observers

theorem display_ok {p : ℕ} (hp : 2 ≤ p) {x : FpElt} (h : Canon p x) : x.display = R.ok (Big.showInt x.n) := by
  have h0 : x.f.p ≠ 0 := by rw [h.1]; exact (by omega : p ≠ 0)
  have h1 : x.n % (x.f.p : ℤ) = x.n := Int.emod_eq_of_lt h.2.1 (by rw [h.1]; exact h.2.2)
  simp [FpElt.display, Big.modFloor, h0, Int.fmod_eq_emod_of_nonneg, h1]

theorem bytes_ok {p : ℕ} (hp : 2 ≤ p) {x : FpElt} (h : Canon p x) :
    ∃ bs, x.toBytesBE = R.ok bs ∧ bs.length = (Big.bits p + 7) / 8 := by
  refine ⟨_, toBytesBE_canon p (by omega) x h, Big.fixedBE_length (Big.one_le_size (by omega)) ?_⟩
  have := Big.lt_256_pow_size p
  have := h.2.1
  have := h.2.2
  omega

/-- `1 / z`, then a product, on reduced elements of one field. -/
theorem scale_ok {p : ℕ} (hp : 2 ≤ p) {x y z : FpElt} (hx : Canon p x) (hy : Canon p y) (hz : Canon p z) :
    ∃ i u v w, FpElt.u32Div 1 z = R.ok i ∧ (R.ok x *! R.ok i) = R.ok u ∧ (R.ok y *! R.ok i) = R.ok v ∧
      (R.ok u *! R.ok v) = R.ok w ∧ Canon p u ∧ Canon p v := by
  have : Fact (1 < p) := ⟨hp⟩
  have : NeZero p := ⟨by omega⟩
  obtain ⟨x, rfl⟩ := canon_iff.1 hx
  obtain ⟨y, rfl⟩ := canon_iff.1 hy
  obtain ⟨z, rfl⟩ := canon_iff.1 hz
  obtain ⟨i, hi⟩ := inv_total z
  exact ⟨_, el (x * i), el (y * i), el (x * i * (y * i)), hi, by simp, by simp, by simp, canon_el _, canon_el _⟩

theorem cross_ok {p : ℕ} (hp : 2 ≤ p) {x z : FpElt} (hx : Canon p x) (hz : Canon p z) :
    ∃ u, (R.ok x *! R.ok z) = R.ok u ∧ (R.ok z *! R.ok x) = R.ok u := by
  have : Fact (1 < p) := ⟨hp⟩
  have : NeZero p := ⟨by omega⟩
  obtain ⟨x, rfl⟩ := canon_iff.1 hx
  obtain ⟨z, rfl⟩ := canon_iff.1 hz
  exact ⟨el (x * z), by simp, by simp [mul_comm]⟩

theorem setOne_ne {x : FpElt} : x.setOne.isZero = false := rfl

theorem wp_on {P : Weierstrass.Point} (h : WpOk P) : P.e.isOnCurve P = R.ok true := by
  have hp := h.curve.mod
  have : NeZero P.e.f.p := ⟨by omega⟩
  obtain ⟨e, ⟨x, y, z⟩⟩ := P
  have hx := h.x.eq_el
  have hy := h.y.eq_el
  have hz := h.z.eq_el
  dsimp only at hx hy hz
  have := WLink.isOnCurve_pt h.curve.a.eq_el h.curve.b.eq_el e (val e.f.p x) (val e.f.p y) (val e.f.p z)
  simp only [WLink.pt, ← hx, ← hy, ← hz] at this
  rw [this, decide_eq_true]
  have := h.eqn
  dsimp only at this
  linear_combination -this

theorem wp_obs {P : Weierstrass.Point} (h : WpReduced P) :
    P.eq P = R.ok true ∧ (∃ s, P.display = R.ok s) ∧ ∀ c, ∃ bs, P.encode c = R.ok bs ∧ bs.length = 1 + (if c then 1 else 2) * P.e.f.sizeBytes := by
  have hp := h.curve.mod
  refine ⟨?_, ?_, ?_⟩
  · obtain ⟨u, hu, hu'⟩ := cross_ok hp h.x h.z
    obtain ⟨v, hv, hv'⟩ := cross_ok hp h.y h.z
    simp only [Weierstrass.Point.eq, hu, hu', hv, hv', R.ok_bind, R.pure_eq, beq_self_eq_true, Bool.and_self]
  · simp only [Weierstrass.Point.display, display_ok hp h.x, display_ok hp h.y, display_ok hp h.z, R.ok_bind, R.pure_eq,
      R.ok.injEq, exists_eq']
  · intro c
    obtain ⟨i, u, v, w, hi, hu, hv, -, cu, cv⟩ := scale_ok hp h.x h.y h.z
    obtain ⟨bu, hbu, lu⟩ := bytes_ok hp cu
    obtain ⟨bv, hbv, lv⟩ := bytes_ok hp cv
    have hn : P.normalize = R.ok { P with c := ⟨u, v, P.c.z.setOne⟩ } := by
      simp only [Weierstrass.Point.normalize, hi, hu, hv, R.ok_bind, R.pure_eq]
    have h0 : (⟨P.e, ⟨u, v, P.c.z.setOne⟩⟩ : Weierstrass.Point).isZero = false := by
      simp [Weierstrass.Point.isZero, setOne_ne]
    simp only [Weierstrass.Point.encode, hn, R.ok_bind, h0, Bool.false_eq_true, if_false, hbu, hbv, R.pure_eq]
    cases c
    · exact ⟨_, rfl, by simp [lu, lv, Fp.sizeBytes]; omega⟩
    · exact ⟨_, rfl, by simp [lu, Fp.sizeBytes]; omega⟩

theorem mp_on {P : Montgomery.Point} (h : MpOk P) : P.e.isOnCurve P = R.ok true := by
  have hp := h.curve.mod
  have : NeZero P.e.f.p := ⟨by omega⟩
  obtain ⟨e, ⟨x, y, z⟩⟩ := P
  have hx := h.x.eq_el
  have hy := h.y.eq_el
  have hz := h.z.eq_el
  dsimp only at hx hy hz
  have := MLink.isOnCurve_pt h.curve.a.eq_el h.curve.b.eq_el e (val e.f.p x) (val e.f.p y) (val e.f.p z)
  simp only [MLink.pt, ← hx, ← hy, ← hz] at this
  rw [this, decide_eq_true]
  have := h.eqn
  dsimp only at this
  linear_combination this

theorem mp_obs {P : Montgomery.Point} (h : MpReduced P) :
    P.eq P = R.ok true ∧ (∃ s, P.display = R.ok s) ∧ ∀ c, ∃ bs, P.encode c = R.ok bs ∧ bs.length = 1 + (if c then 1 else 2) * P.e.f.sizeBytes := by
  have hp := h.curve.mod
  refine ⟨?_, ?_, ?_⟩
  · obtain ⟨u, hu, hu'⟩ := cross_ok hp h.x h.z
    obtain ⟨v, hv, hv'⟩ := cross_ok hp h.y h.z
    simp only [Montgomery.Point.eq, hu, hu', hv, hv', R.ok_bind, R.pure_eq, beq_self_eq_true, Bool.and_self]
  · simp only [Montgomery.Point.display, display_ok hp h.x, display_ok hp h.y, display_ok hp h.z, R.ok_bind, R.pure_eq,
      R.ok.injEq, exists_eq']
  · intro c
    obtain ⟨i, u, v, w, hi, hu, hv, -, cu, cv⟩ := scale_ok hp h.x h.y h.z
    obtain ⟨bu, hbu, lu⟩ := bytes_ok hp cu
    obtain ⟨bv, hbv, lv⟩ := bytes_ok hp cv
    have hn : P.normalize = R.ok { P with c := ⟨u, v, P.c.z.setOne⟩ } := by
      simp only [Montgomery.Point.normalize, hi, hu, hv, R.ok_bind, R.pure_eq]
    have h0 : (⟨P.e, ⟨u, v, P.c.z.setOne⟩⟩ : Montgomery.Point).isZero = false := by
      simp [Montgomery.Point.isZero, setOne_ne]
    simp only [Montgomery.Point.encode, hn, R.ok_bind, h0, Bool.false_eq_true, if_false, hbu, hbv, R.pure_eq]
    cases c
    · exact ⟨_, rfl, by simp [lu, lv, Fp.sizeBytes]; omega⟩
    · exact ⟨_, rfl, by simp [lu, Fp.sizeBytes]; omega⟩

theorem ep_on {P : Edwards.Point} (h : EpOk P) : P.e.isOnCurve P = R.ok true := by
  have hp := h.curve.mod
  have : NeZero P.e.f.p := ⟨by omega⟩
  obtain ⟨e, ⟨x, y, t, z⟩⟩ := P
  have hx := h.x.eq_el
  have hy := h.y.eq_el
  have ht := h.t.eq_el
  have hz := h.z.eq_el
  dsimp only at hx hy hz ht
  have := ELink.isOnCurve_pt h.curve.a.eq_el h.curve.d.eq_el e (val e.f.p x) (val e.f.p y) (val e.f.p t) (val e.f.p z)
  simp only [ELink.pt, ← hx, ← hy, ← hz, ← ht] at this
  rw [this, decide_eq_true]
  exact ⟨h.eqn, h.seg⟩

theorem ep_obs {P : Edwards.Point} (h : EpReduced P) :
    P.eq P = R.ok true ∧ (∃ s, P.display = R.ok s) ∧ ∀ c, ∃ bs, P.encode c = R.ok bs ∧ bs.length = (Big.bits P.e.f.p + 8) / 8 := by
  have hp := h.curve.mod
  refine ⟨?_, ?_, ?_⟩
  · obtain ⟨u, hu, hu'⟩ := cross_ok hp h.x h.z
    obtain ⟨v, hv, hv'⟩ := cross_ok hp h.y h.z
    obtain ⟨w, hw, hw'⟩ := cross_ok hp h.t h.z
    simp only [Edwards.Point.eq, hu, hu', hv, hv', hw, hw', R.ok_bind, R.pure_eq, beq_self_eq_true, Bool.and_self]
  · simp only [Edwards.Point.display, display_ok hp h.x, display_ok hp h.y, display_ok hp h.z, display_ok hp h.t,
      R.ok_bind, R.pure_eq, R.ok.injEq, exists_eq']
  · intro c
    obtain ⟨i, u, v, w, hi, hu, hv, hw, cu, cv⟩ := scale_ok hp h.x h.y h.z
    obtain ⟨bv, hbv, lv⟩ := bytes_ok hp cv
    have hn : P.normalize = R.ok { P with c := ⟨u, v, w, P.c.z.setOne⟩ } := by
      simp only [Edwards.Point.normalize, hi, hu, hv, hw, R.ok_bind, R.pure_eq]
    have hle : v.toBytesLE = R.ok bv.reverse := by simp [FpElt.toBytesLE, hbv]
    simp only [Edwards.Point.encode, hn, R.ok_bind, hle, R.pure_eq]
    have hl : ((bv.reverse ++ List.replicate ((Big.bits P.e.f.p + 1 + 7) / 8 - bv.reverse.length) 0).take
        ((Big.bits P.e.f.p + 1 + 7) / 8)).length = (Big.bits P.e.f.p + 8) / 8 := by
      simp [lv]; omega
    generalize ((bv.reverse ++ List.replicate ((Big.bits P.e.f.p + 1 + 7) / 8 - bv.reverse.length) 0).take
        ((Big.bits P.e.f.p + 1 + 7) / 8)) = l at hl ⊢
    have h1 : l.length - 1 < l.length := by
      have : 1 ≤ (Big.bits P.e.f.p + 8) / 8 := by omega
      omega
    simp only [index, List.getElem?_eq_getElem h1, R.ok_bind]
    exact ⟨_, rfl, by simpa using hl⟩

/-- C84, consequence. On every value a user can hold, the functions that only look at it return: printing, comparing it
with itself, and both encodings, whose lengths depend on the modulus only. The curve-membership test returns `true`, up
to the exceptions of `C84_invariant`. -/
theorem _root_.Redox.Props.C84_observers :
    (∀ x, Api (.elt x) → x.display = R.ok (Big.showInt x.n) ∧
      ∃ bs, x.toBytesBE = R.ok bs ∧ x.toBytesLE = R.ok bs.reverse ∧ bs.length = x.f.sizeBytes) ∧
    (∀ k, Api (.scalar k) → ∃ bs, k.toBytesBE = R.ok bs ∧ k.toBytesLE = R.ok bs.reverse ∧
      bs.length = (Big.bits k.r.natAbs + 7) / 8) ∧
    (∀ P, Api (.wp P) →
      (P.e.isOnCurve P = R.ok true ∨ (P.normalize = R.ok P ∧ ∃ Q, Api (.wp Q) ∧ Q.normalize = R.ok P ∧
        (Q.c.z.isZero = true ∨ ¬ (Q.e.f.p.Prime ∧ Q.e.f.p ≠ 2)))) ∧
      P.eq P = R.ok true ∧ (∃ s, P.display = R.ok s) ∧ ∀ c, ∃ bs, P.encode c = R.ok bs ∧ bs.length = 1 + (if c then 1 else 2) * P.e.f.sizeBytes) ∧
    (∀ P, Api (.mp P) →
      (P.e.isOnCurve P = R.ok true ∨ (P.normalize = R.ok P ∧ ∃ Q, Api (.mp Q) ∧ Q.normalize = R.ok P ∧
        ¬ (Q.e.f.p.Prime ∧ Q.e.f.p ≠ 2))) ∧
      P.eq P = R.ok true ∧ (∃ s, P.display = R.ok s) ∧ ∀ c, ∃ bs, P.encode c = R.ok bs ∧ bs.length = 1 + (if c then 1 else 2) * P.e.f.sizeBytes) ∧
    (∀ P, Api (.ep P) →
      (P.e.isOnCurve P = R.ok true ∨ (P.normalize = R.ok P ∧ ∃ Q, Api (.ep Q) ∧ Q.normalize = R.ok P ∧
        (Q.c.z.isZero = true ∨ ¬ (Q.e.f.p.Prime ∧ Q.e.f.p ≠ 2)))) ∧
      P.eq P = R.ok true ∧ (∃ s, P.display = R.ok s) ∧ ∀ c, ∃ bs, P.encode c = R.ok bs ∧ bs.length = (Big.bits P.e.f.p + 8) / 8) := by
  refine ⟨fun x hx => ?_, fun k hk => ?_, fun P h => ⟨?_, wp_obs (wp_red (wellFormed _ h))⟩,
    fun P h => ⟨?_, mp_obs (mp_red (wellFormed _ h))⟩, fun P h => ⟨?_, ep_obs (ep_red (wellFormed _ h))⟩⟩
  · have h : EltOk x := wellFormed _ hx
    obtain ⟨bs, hb, hl⟩ := bytes_ok h.1 h.2
    exact ⟨display_ok h.1 h.2, bs, hb, by simp [FpElt.toBytesLE, hb], hl⟩
  · have h : 0 ≤ k.k ∧ k.k < k.r := wellFormed _ hk
    obtain ⟨n, r⟩ := k
    obtain ⟨r, rfl⟩ := Int.eq_ofNat_of_zero_le (h.1.trans h.2.le)
    obtain ⟨bs, h1, h2, h3, -⟩ := C21_serialize r (by have := h.1; have := h.2; dsimp only at *; omega) ⟨n, r⟩ ⟨rfl, h.1, h.2⟩
    exact ⟨bs, h1, h2, by simpa using h3⟩
  · exact (wellFormed _ h).imp wp_on fun h => h.2
  · exact (wellFormed _ h).imp mp_on fun h => h.2
  · exact (wellFormed _ h).imp ep_on fun h => h.2

/-- The exception in C84 is needed: two calls after choosing the curve P-256 give a value that is not a point of the
curve. -/
theorem _root_.Redox.Props.C84_exception :
    ∃ e I N, Api (.wc e) ∧ e.identity = R.ok I ∧ I.normalize = R.ok N ∧ Api (.wp N) ∧ e.isOnCurve N = R.ok false := by
  have he : Api (.wc Redox.Inst.p256) := .wcNew _ Redox.Inst.p256_eq (by decide +kernel)
  have hI : Redox.Inst.p256.identity = R.ok ⟨Redox.Inst.p256, ⟨⟨0, Redox.Inst.p256.f⟩, ⟨1, Redox.Inst.p256.f⟩,
      ⟨0, Redox.Inst.p256.f⟩⟩⟩ := by decide +kernel
  have hN : Redox.Inst.p256.isOnCurve ⟨Redox.Inst.p256, ⟨⟨0, Redox.Inst.p256.f⟩, ⟨0, Redox.Inst.p256.f⟩,
      ⟨1, Redox.Inst.p256.f⟩⟩⟩ = R.ok false := by decide +kernel
  have hn : (⟨Redox.Inst.p256, ⟨⟨0, Redox.Inst.p256.f⟩, ⟨1, Redox.Inst.p256.f⟩, ⟨0, Redox.Inst.p256.f⟩⟩⟩ :
      Weierstrass.Point).normalize = R.ok ⟨Redox.Inst.p256, ⟨⟨0, Redox.Inst.p256.f⟩, ⟨0, Redox.Inst.p256.f⟩,
      ⟨1, Redox.Inst.p256.f⟩⟩⟩ := by decide +kernel
  exact ⟨_, _, _, he, hI, hn, .wpNormalize (.wcIdentity he hI) hn, hN⟩

/-- A history through several parts of the library: the generator of edwards25519, doubled, sent to curve25519. -/
example : ∃ e G D m Q bs, Api (.ec e) ∧ e.getGenerator = R.ok G ∧ G.add G = R.ok D ∧
    edwards25519_to_curve25519 = R.ok m ∧ m.push D = R.ok Q ∧ Api (.mp Q) ∧ Q.encode true = R.ok bs := by
  have he : Api (.ec Redox.Inst.edwards25519) := .ecNew _ Redox.Inst.edwards25519_eq (by decide +kernel)
  have ok : ∀ {α : Type} {x : R α}, x.isOk = true → ∃ v, x = R.ok v := by
    intro α x h
    cases x
    · exact ⟨_, rfl⟩
    · cases h
  obtain ⟨G, hG⟩ := ok (x := Redox.Inst.edwards25519.getGenerator) (by decide +kernel)
  obtain ⟨m, hm⟩ := ok (x := edwards25519_to_curve25519) (by decide +kernel)
  obtain ⟨D, hD⟩ := ok (x := G.add G) (by
    have : (Redox.Inst.edwards25519.getGenerator.bind fun G => G.add G).isOk = true := by decide +kernel
    rwa [hG] at this)
  obtain ⟨Q, hQ⟩ := ok (x := m.push D) (by
    have : (edwards25519_to_curve25519.bind fun m => (Redox.Inst.edwards25519.getGenerator.bind
      fun G => (G.add G).bind fun D => m.push D)).isOk = true := by decide +kernel
    rw [hm, hG] at this
    simp only [R.bind, hD] at this
    exact this)
  have aG := Api.ecGenerator he hG
  have aQ := Api.push25519 (.rat25519 hm) (.epAdd aG aG hD) hQ
  obtain ⟨bs, hbs, -⟩ := (C84_observers.2.2.2.1 Q aQ).2.2.2 true
  exact ⟨_, G, D, m, Q, bs, he, hG, hD, hm, hQ, aQ, hbs⟩

end observers

end Redox.Props.ApiH
