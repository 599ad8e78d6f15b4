import Verif.Proofs.InstLink
import Verif.Math.AutJ0

/-! # Multiples of concrete points, computed with the code's own operations -/

namespace Redox.CofLink

open Redox.Spec Redox.InstLink

/-- `k (x, y) == identity`. -/
def wTors (e : Weierstrass.Curve) (x y : FpElt) (k : ℕ) : R Bool := do
  let P ← e.newPoint x y
  let S ← P.mul .release ⟨k, e.r⟩
  S.eq (← e.identity)

/-- `k (x, y) == (x', y)`. -/
def wTimes (e : Weierstrass.Curve) (x y : FpElt) (k : ℕ) (x' : FpElt) : R Bool := do
  let P ← e.newPoint x y
  let S ← P.mul .release ⟨k, e.r⟩
  S.eq (← e.newPoint x' y)

def mTors (e : Montgomery.Curve) (x y : FpElt) (k : ℕ) : R Bool := do
  let P ← e.newPoint x y
  let S ← P.mul .release ⟨k, e.r⟩
  S.eq (← e.identity)

def eTors (e : Edwards.Curve) (x y : FpElt) (k : ℕ) : R Bool := do
  let P ← e.newPoint x y
  let S ← P.mul .release ⟨k, e.r⟩
  S.eq (← e.identity)

section
variable {p : ℕ} [Fact p.Prime]

theorem wNew {e : Weierstrass.Curve} (hc : WCurve p e) {x y : FpElt} (hx : Canon p x) (hy : Canon p y) {P : Weierstrass.Point}
    (hP : e.newPoint x y = R.ok P) : ∃ h, WDenotes p e P (.some (val p x) (val p y) h) := by
  have hon : Props.OnW p e x y := by
    by_contra hno
    rw [(Props.C22_new_point p e hc x y hx hy).2 hno] at hP
    cases hP
  obtain ⟨P', hP', -, -, -, hh, hd⟩ := (Props.C22_new_point p e hc x y hx hy).1 hon
  rw [hP', R.ok.injEq] at hP
  subst hP
  exact ⟨hh, hd⟩

theorem wTors_spec {e : Weierstrass.Curve} (hv : WValid p e) {x y : FpElt} (hx : Canon p x) (hy : Canon p y) {k : ℕ}
    (hk : k < e.r) {b : Bool} (h : wTors e x y k = R.ok b) :
    ∃ hh, (k • (.some (val p x) (val p y) hh : (wGroup p e).Point) = 0 ↔ b = true) := by
  rw [wTors] at h
  obtain ⟨P, hP, h1⟩ := R.bind_eq_ok.1 h
  obtain ⟨S, hS, h2⟩ := R.bind_eq_ok.1 h1
  obtain ⟨I, hI, h3⟩ := R.bind_eq_ok.1 h2
  obtain ⟨hh, hd⟩ := wNew hv.curve hx hy hP
  obtain ⟨S', hS', hSd⟩ := Props.C25_mul_partial p e hv.curve hv.complete hv.order_bits .release P _ hd ⟨k, e.r⟩
    ⟨rfl, by simp, by simpa using hk⟩ (Or.inr rfl)
  rw [hS, R.ok.injEq] at hS'; subst hS'
  obtain ⟨I', hI', hId, -⟩ := Props.C22_identity p e hv.curve
  rw [hI, R.ok.injEq] at hI'; subst hI'
  rw [Props.C27_eq p e _ _ _ _ hSd hId, R.ok.injEq] at h3
  refine ⟨hh, ?_⟩
  rw [← h3, decide_eq_true_eq, natCast_zsmul]

theorem wTimes_spec {e : Weierstrass.Curve} (hv : WValid p e) {x y x' : FpElt} (hx : Canon p x) (hy : Canon p y)
    (hx' : Canon p x') {k : ℕ} (hk : k < e.r) {b : Bool} (h : wTimes e x y k x' = R.ok b) :
    ∃ hh hh', (k • (.some (val p x) (val p y) hh : (wGroup p e).Point) = .some (val p x') (val p y) hh' ↔ b = true) := by
  rw [wTimes] at h
  obtain ⟨P, hP, h1⟩ := R.bind_eq_ok.1 h
  obtain ⟨S, hS, h2⟩ := R.bind_eq_ok.1 h1
  obtain ⟨I, hI, h3⟩ := R.bind_eq_ok.1 h2
  obtain ⟨hh, hd⟩ := wNew hv.curve hx hy hP
  obtain ⟨hh', hd'⟩ := wNew hv.curve hx' hy hI
  obtain ⟨S', hS', hSd⟩ := Props.C25_mul_partial p e hv.curve hv.complete hv.order_bits .release P _ hd ⟨k, e.r⟩
    ⟨rfl, by simp, by simpa using hk⟩ (Or.inr rfl)
  rw [hS, R.ok.injEq] at hS'; subst hS'
  rw [Props.C27_eq p e _ _ _ _ hSd hd', R.ok.injEq] at h3
  refine ⟨hh, hh', ?_⟩
  rw [← h3, decide_eq_true_eq, natCast_zsmul]

theorem mTors_spec {e : Montgomery.Curve} (hv : MValid p e) {x y : FpElt} (hx : Canon p x) (hy : Canon p y) {k : ℕ}
    (hk : k < e.r) {b : Bool} (h : mTors e x y k = R.ok b) :
    ∃ hh, (k • (.some (val p x) (val p y) hh : (mGroup p e).Point) = 0 ↔ b = true) := by
  rw [mTors] at h
  obtain ⟨P, hP, h1⟩ := R.bind_eq_ok.1 h
  obtain ⟨S, hS, h2⟩ := R.bind_eq_ok.1 h1
  obtain ⟨I, hI, h3⟩ := R.bind_eq_ok.1 h2
  have hc := hv.curve
  have hon : val p e.b * val p y ^ 2 = val p x ^ 3 + val p e.a * val p x ^ 2 + val p x := by
    by_contra hno
    rw [(Props.C53_new_point p e hc x y hx hy).2 hno] at hP
    cases hP
  have hP' : e.newPoint x y = R.ok (MLink.pt e (val p x) (val p y) 1) := by
    have := MLink.newPoint_pt hc (val p x) (val p y)
    rwa [← hx.eq_el, ← hy.eq_el, if_pos hon] at this
  rw [hP', R.ok.injEq] at hP
  subst hP
  obtain ⟨A, hA⟩ := MLink.exists_rep (x := val p x) (y := val p y) (z := 1) hc.odd (MLink.ea_ne hc)
    (by rw [hv.b_one] at hon; linear_combination hon) (Or.inr one_ne_zero)
  have hd : MDenotes p e (MLink.pt e (val p x) (val p y) 1) A := MLink.denotes_iff.2 ⟨_, _, _, rfl, hA⟩
  obtain ⟨S', hS', hSd⟩ := Props.C33_mul_partial p e hc hv.b_one hv.complete hv.order_bits .release _ _ hd ⟨k, e.r⟩
    ⟨rfl, by simp, by simpa using hk⟩ (Or.inr rfl)
  rw [hS, R.ok.injEq] at hS'; subst hS'
  obtain ⟨I', hI', hId⟩ := Props.Mo.identity_denotes hc
  rw [hI, R.ok.injEq] at hI'; subst hI'
  rw [(Props.C32_eq p e _ _ _ _ hSd hId).1, R.ok.injEq] at h3
  rcases A with _ | ⟨u, v, huv⟩
  · exact absurd hA.2.2 one_ne_zero
  · obtain ⟨-, hu, hv'⟩ := hA
    rw [mul_one] at hu hv'
    subst hu hv'
    refine ⟨huv, ?_⟩
    rw [← h3, decide_eq_true_eq, natCast_zsmul]

theorem eTors_spec {e : Edwards.Curve} (hv : EValid p e) [ECurve p e] {x y : FpElt} (hx : Canon p x) (hy : Canon p y) {k : ℕ}
    (hk : k < e.r) {b : Bool} (h : eTors e x y k = R.ok b) :
    ∃ hh, (k • (⟨val p x, val p y, hh⟩ : eGroup p e) = 0 ↔ b = true) := by
  rw [eTors] at h
  obtain ⟨P, hP, h1⟩ := R.bind_eq_ok.1 h
  obtain ⟨S, hS, h2⟩ := R.bind_eq_ok.1 h1
  obtain ⟨I, hI, h3⟩ := R.bind_eq_ok.1 h2
  have hp := hv.curve.params
  have hon : val p e.a * val p x ^ 2 + val p y ^ 2 = 1 + val p e.d * val p x ^ 2 * val p y ^ 2 := by
    by_contra hno
    rw [(Props.C54_new_point p e hp x y hx hy).2 hno] at hP
    cases hP
  have hP' : e.newPoint x y = R.ok (ELink.pt e (val p x) (val p y) (val p x * val p y) 1) := by
    have := ELink.newPoint_pt hp (val p x) (val p y)
    rwa [← hx.eq_el, ← hy.eq_el, if_pos hon] at this
  rw [hP', R.ok.injEq] at hP
  subst hP
  have hden : EDenotes p e (ELink.pt e (val p x) (val p y) (val p x * val p y) 1) ⟨val p x, val p y, hon⟩ :=
    ELink.denotes_iff.2 ⟨_, _, _, _, rfl, one_ne_zero, by ring, by ring, by ring⟩
  obtain ⟨S', hS', hSd⟩ := Props.C37_mul_partial p e hv.order_bits .release _ _ hden ⟨k, e.r⟩
    ⟨rfl, by simp, by simpa using hk⟩ (Or.inr rfl)
  rw [hS, R.ok.injEq] at hS'; subst hS'
  obtain ⟨-, -, -, ⟨I', hI', hId⟩⟩ := Props.C36_group_law p e _ _ _ _ hden hden
  rw [hI, R.ok.injEq] at hI'; subst hI'
  rw [Props.C36_eq p e _ _ _ _ hSd hId, R.ok.injEq] at h3
  refine ⟨hon, ?_⟩
  rw [← h3, decide_eq_true_eq, natCast_zsmul]

/-- A concrete field element. -/
def fe (p n : ℕ) : FpElt := ⟨n, ⟨p⟩⟩

theorem canon_fe {p n : ℕ} (h : n < p) : Canon p (fe p n) := ⟨rfl, by simp [fe], by simpa [fe] using h⟩

end

end Redox.CofLink
