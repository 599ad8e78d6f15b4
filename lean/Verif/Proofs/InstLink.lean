import Verif.Spec.Instances
import Verif.Math.NoRoot
import Verif.Props.WeierPoints
import Verif.Props.MontPoints
import Verif.Props.EdwPoints

/-! # Kernel-checked validity of concrete curve parameters -/

namespace Redox.InstLink

open Redox.Spec

/-- The order test, run on the code's own operations: `(r - 1) G == -G`. -/
def wOrder (e : Weierstrass.Curve) : R Bool := do
  let g ← e.getGenerator
  let s ← g.mul .release ⟨e.r - 1, e.r⟩
  let n ← g.neg
  s.eq n

def mOrder (e : Montgomery.Curve) : R Bool := do
  let g ← e.getGenerator
  let s ← g.mul .release ⟨e.r - 1, e.r⟩
  let n ← g.neg
  s.eq n

def eOrder (e : Edwards.Curve) : R Bool := do
  let g ← e.getGenerator
  let s ← g.mul .release ⟨e.r - 1, e.r⟩
  let n ← g.neg
  s.eq n

/-- Reduced element check. -/
def canonB (p : ℕ) (a : FpElt) : Bool := decide (a.f = ⟨p⟩) && decide (0 ≤ a.n) && decide (a.n < p)

theorem canonB_iff {p : ℕ} {a : FpElt} : canonB p a = true ↔ Canon p a := by
  simp [canonB, Canon, and_assoc]

def wCheck (p : ℕ) (e : Weierstrass.Curve) (B : NoRoot.Tri) : Bool :=
  decide (2 < p) && decide (e.f = ⟨p⟩) && canonB p e.a && canonB p e.b && canonB p e.gx && canonB p e.gy &&
    decide ((4 * e.a.n ^ 3 + 27 * e.b.n ^ 2) % p ≠ 0) && decide (Big.bits e.r < usizeMod) &&
    NoRoot.check p ⟨p - e.b.n.toNat, p - e.a.n.toNat, 0⟩ B

def mCheck (p : ℕ) (e : Montgomery.Curve) (B : NoRoot.Tri) : Bool :=
  decide (2 < p) && decide (e.f = ⟨p⟩) && canonB p e.a && canonB p e.b && canonB p e.s && canonB p e.gx && canonB p e.gy &&
    decide (e.b.n = 1) &&
    decide ((e.a.n ^ 2 - 4) % p ≠ 0) && decide (Big.bits e.r < usizeMod) &&
    NoRoot.check p ⟨e.s.n.toNat ^ 2, p - 1, p - e.a.n.toNat⟩ B

def eCheck (p : ℕ) (e : Edwards.Curve) : Bool :=
  decide (2 < p) && decide (e.f = ⟨p⟩) && canonB p e.a && canonB p e.d && canonB p e.gx && canonB p e.gy &&
    decide (e.a.n ≠ 0) && decide (e.gx.n ≠ 0) && Big.powMod e.a.n.toNat (p / 2) p == 1 && Big.powMod e.d.n.toNat (p / 2) p == p - 1 &&
    decide (Big.bits e.r < usizeMod)

section
variable {p : ℕ} [Fact p.Prime]

theorem val_toNat {a : FpElt} (h : Canon p a) : ((a.n.toNat : ℕ) : ZMod p) = val p a := by
  have : ((a.n.toNat : ℕ) : ℤ) = a.n := Int.toNat_of_nonneg h.2.1
  rw [val, ← Int.cast_natCast, this]

theorem toNat_le {a : FpElt} (h : Canon p a) : a.n.toNat ≤ p := by
  have := h.2.2; have := h.2.1; omega

theorem cast_sub_toNat {a : FpElt} (h : Canon p a) : ((p - a.n.toNat : ℕ) : ZMod p) = - val p a := by
  rw [Nat.cast_sub (toNat_le h), val_toNat h, ZMod.natCast_self, zero_sub]

theorem cast_ne_zero_of_emod {z : ℤ} (h : z % p ≠ 0) : (z : ZMod p) ≠ 0 := by
  rw [Ne, ZMod.intCast_zmod_eq_zero_iff_dvd]
  intro hd; exact h (Int.emod_eq_zero_of_dvd hd)

theorem addOrder_of {G : Type*} [AddCommGroup G] {A : G} {r : ℕ} (hr : r.Prime) (h0 : A ≠ 0)
    (h : ((r : ℤ) - 1) • A = -A) : addOrderOf A = r := by
  haveI : Fact r.Prime := ⟨hr⟩
  refine addOrderOf_eq_prime ?_ h0
  rw [sub_smul, one_smul, natCast_zsmul, sub_eq_neg_self] at h
  exact h

theorem wValid_of_check (e : Weierstrass.Curve) (B : NoRoot.Tri) (hr : e.r.Prime) (h : wCheck p e B = true)
    (ho : wOrder e = R.ok true) : WValid p e := by
  simp only [wCheck, Bool.and_eq_true, decide_eq_true_eq, canonB_iff] at h
  obtain ⟨⟨⟨⟨⟨⟨⟨⟨h2, hf⟩, ha⟩, hb⟩, hgx⟩, hgy⟩, hns⟩, hbits⟩, hroot⟩ := h
  have hc : WCurve p e := by
    refine ⟨Fact.out, by omega, hf, ha, hb, ?_⟩
    have := cast_ne_zero_of_emod hns
    simpa [val] using this
  have hcomp : NoTwoTorsion p e := by
    rw [Props.noTwoTorsion_iff p e hc]
    intro x hx
    apply NoRoot.no_root _ _ hroot x
    simp only [cast_sub_toNat ha, cast_sub_toNat hb, Nat.cast_zero]
    linear_combination hx
  refine ⟨hc, hr, hbits, hcomp, ?_⟩
  rw [wOrder] at ho
  obtain ⟨G, hG, ho1⟩ := R.bind_eq_ok.1 ho
  obtain ⟨S, hS, ho2⟩ := R.bind_eq_ok.1 ho1
  obtain ⟨N, hN, ho3⟩ := R.bind_eq_ok.1 ho2
  clear ho ho1 ho2
  have hon : Props.OnW p e e.gx e.gy := by
    by_contra hno
    have h1 := (Props.C22_new_point p e hc e.gx e.gy hgx hgy).2 hno
    have : e.getGenerator = e.newPoint e.gx e.gy := rfl
    rw [this, h1] at hG
    cases hG
  obtain ⟨P, hP, -, -, -, hh, hd⟩ := (Props.C22_new_point p e hc e.gx e.gy hgx hgy).1 hon
  have : e.getGenerator = e.newPoint e.gx e.gy := rfl
  rw [this, hP, R.ok.injEq] at hG
  subst hG
  refine ⟨P, _, by rw [this, hP], hd, ?_⟩
  have hr2 := hr.two_le
  obtain ⟨S', hS', hSd⟩ := Props.C25_mul_partial p e hc hcomp hbits .release P _ hd ⟨e.r - 1, e.r⟩
    ⟨rfl, by simp; omega, by simp⟩ (Or.inr rfl)
  obtain ⟨-, -, ⟨N', hN', hNd⟩⟩ := Props.C23_group_law p e hc hcomp P P _ _ hd hd
  rw [hS, R.ok.injEq] at hS'; subst hS'
  rw [hN, R.ok.injEq] at hN'; subst hN'
  rw [Props.C27_eq p e _ _ _ _ hSd hNd, R.ok.injEq, decide_eq_true_eq] at ho3
  exact addOrder_of hr (WeierstrassCurve.Affine.Point.some_ne_zero hh) ho3

theorem mValid_of_check (e : Montgomery.Curve) (B : NoRoot.Tri) (hr : e.r.Prime) (h : mCheck p e B = true)
    (ho : mOrder e = R.ok true) : MValid p e := by
  simp only [mCheck, Bool.and_eq_true, decide_eq_true_eq, canonB_iff] at h
  obtain ⟨⟨⟨⟨⟨⟨⟨⟨⟨⟨h2, hf⟩, ha⟩, hb⟩, hs⟩, hgx⟩, hgy⟩, hb1⟩, hns⟩, hbits⟩, hroot⟩ := h
  have hb1' : val p e.b = 1 := by simp [val, hb1]
  have hc : MCurve p e := by
    refine ⟨Fact.out, by omega, hf, ha, hb, hs, ?_⟩
    have := cast_ne_zero_of_emod hns
    rw [hb1', one_mul]
    simpa [val] using this
  have hcomp : SNotY p e := by
    intro x hx
    apply NoRoot.no_root _ _ hroot x
    have hp := (Fact.out : p.Prime)
    simp only [cast_sub_toNat ha, Nat.cast_pow, val_toNat hs, Nat.cast_sub hp.one_le, ZMod.natCast_self]
    rw [hb1'] at hx
    push_cast
    linear_combination -hx
  refine ⟨hc, hb1', hr, hbits, hcomp, ?_⟩
  rw [mOrder] at ho
  obtain ⟨G, hG, ho1⟩ := R.bind_eq_ok.1 ho
  obtain ⟨S, hS, ho2⟩ := R.bind_eq_ok.1 ho1
  obtain ⟨N, hN, ho3⟩ := R.bind_eq_ok.1 ho2
  clear ho ho1 ho2
  have hgen : e.getGenerator = e.newPoint e.gx e.gy := rfl
  have hon : val p e.b * val p e.gy ^ 2 = val p e.gx ^ 3 + val p e.a * val p e.gx ^ 2 + val p e.gx := by
    by_contra hno
    have h1 := (Props.C53_new_point p e hc e.gx e.gy hgx hgy).2 hno
    rw [hgen, h1] at hG
    cases hG
  have hP : e.newPoint e.gx e.gy = R.ok (MLink.pt e (val p e.gx) (val p e.gy) 1) := by
    have := MLink.newPoint_pt hc (val p e.gx) (val p e.gy)
    rwa [← hgx.eq_el, ← hgy.eq_el, if_pos hon] at this
  obtain ⟨A, hA⟩ := MLink.exists_rep (x := val p e.gx) (y := val p e.gy) (z := 1) hc.odd (MLink.ea_ne hc)
    (by rw [hb1'] at hon; linear_combination hon) (Or.inr one_ne_zero)
  have hd : MDenotes p e (MLink.pt e (val p e.gx) (val p e.gy) 1) A := MLink.denotes_iff.2 ⟨_, _, _, rfl, hA⟩
  rw [hgen, hP, R.ok.injEq] at hG
  subst hG
  refine ⟨_, A, by rw [hgen, hP], hd, ?_⟩
  have h0 : A ≠ 0 := by
    rintro rfl
    exact one_ne_zero hA.2.2
  have hr2 := hr.two_le
  obtain ⟨S', hS', hSd⟩ := Props.C33_mul_partial p e hc hb1' hcomp hbits .release _ _ hd ⟨e.r - 1, e.r⟩
    ⟨rfl, by simp; omega, by simp⟩ (Or.inr rfl)
  obtain ⟨-, -, ⟨N', hN', hNd⟩⟩ := Props.C32_group_law_partial p e hc hb1' hcomp _ _ _ _ hd hd
  rw [hS, R.ok.injEq] at hS'; subst hS'
  rw [hN, R.ok.injEq] at hN'; subst hN'
  rw [(Props.C32_eq p e _ _ _ _ hSd hNd).1, R.ok.injEq, decide_eq_true_eq] at ho3
  exact addOrder_of hr h0 ho3

theorem eValid_of_check (e : Edwards.Curve) (hr : e.r.Prime) (h : eCheck p e = true)
    (ho : eOrder e = R.ok true) : EValid p e := by
  simp only [eCheck, Bool.and_eq_true, decide_eq_true_eq, canonB_iff, beq_iff_eq] at h
  obtain ⟨⟨⟨⟨⟨⟨⟨⟨⟨⟨h2, hf⟩, ha⟩, hd⟩, hgx⟩, hgy⟩, ha0⟩, hgx0⟩, hasq⟩, hdsq⟩, hbits⟩ := h
  have hne : ∀ a : FpElt, Canon p a → a.n ≠ 0 → val p a ≠ 0 := by
    intro a ha h0
    refine cast_ne_zero_of_emod ?_
    rwa [Int.emod_eq_of_lt ha.2.1 ha.2.2]
  have hp : EParams p e := ⟨Fact.out, by omega, hf, ha, hd⟩
  haveI hc : ECurve p e := by
    refine ⟨hp, hne _ ha ha0, ?_, ?_⟩
    · rw [← val_toNat ha]; exact NoRoot.isSquare_of_pow _ hasq h2
    · rw [← val_toNat hd]; exact NoRoot.not_isSquare_of_pow _ hdsq h2
  refine ⟨hc, hr, hbits, ?_⟩
  rw [eOrder] at ho
  obtain ⟨G, hG, ho1⟩ := R.bind_eq_ok.1 ho
  obtain ⟨S, hS, ho2⟩ := R.bind_eq_ok.1 ho1
  obtain ⟨N, hN, ho3⟩ := R.bind_eq_ok.1 ho2
  clear ho ho1 ho2
  have hgen : e.getGenerator = e.newPoint e.gx e.gy := rfl
  have hon : val p e.a * val p e.gx ^ 2 + val p e.gy ^ 2 = 1 + val p e.d * val p e.gx ^ 2 * val p e.gy ^ 2 := by
    by_contra hno
    have h1 := (Props.C54_new_point p e hp e.gx e.gy hgx hgy).2 hno
    rw [hgen, h1] at hG
    cases hG
  have hP : e.newPoint e.gx e.gy = R.ok (ELink.pt e (val p e.gx) (val p e.gy) (val p e.gx * val p e.gy) 1) := by
    have := ELink.newPoint_pt hp (val p e.gx) (val p e.gy)
    rwa [← hgx.eq_el, ← hgy.eq_el, if_pos hon] at this
  have hden : EDenotes p e (ELink.pt e (val p e.gx) (val p e.gy) (val p e.gx * val p e.gy) 1)
      ⟨val p e.gx, val p e.gy, hon⟩ :=
    ELink.denotes_iff.2 ⟨_, _, _, _, rfl, one_ne_zero, by ring, by ring, by ring⟩
  rw [hgen, hP, R.ok.injEq] at hG
  subst hG
  refine ⟨_, _, by rw [hgen, hP], hden, ?_⟩
  have h0 : (⟨val p e.gx, val p e.gy, hon⟩ : eGroup p e) ≠ 0 := by
    intro h
    exact hne _ hgx hgx0 (congrArg Edw.EPt.x h)
  have hr2 := hr.two_le
  obtain ⟨S', hS', hSd⟩ := Props.C37_mul_partial p e hbits .release _ _ hden ⟨e.r - 1, e.r⟩
    ⟨rfl, by simp; omega, by simp⟩ (Or.inr rfl)
  obtain ⟨-, -, ⟨N', hN', hNd⟩, -⟩ := Props.C36_group_law p e _ _ _ _ hden hden
  rw [hS, R.ok.injEq] at hS'; subst hS'
  rw [hN, R.ok.injEq] at hN'; subst hN'
  rw [Props.C36_eq p e _ _ _ _ hSd hNd, R.ok.injEq, decide_eq_true_eq] at ho3
  exact addOrder_of hr h0 ho3

end

end Redox.InstLink
