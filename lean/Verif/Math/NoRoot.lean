import Mathlib.FieldTheory.Finite.Basic
import Mathlib.Tactic.LinearCombination
import Mathlib.NumberTheory.LegendreSymbol.Basic
import Verif.Math.PowMod

/-! # Kernel-checked certificates over a prime field: cubics without roots, non-squares -/

namespace Redox.NoRoot

/-- A polynomial of degree at most two modulo a cubic, low coefficient first. -/
structure Tri where
  c0 : ℕ
  c1 : ℕ
  c2 : ℕ
deriving DecidableEq

/-- Product modulo `p` and `X³ = n.c0 + n.c1 X + n.c2 X²`. -/
def mulT (p : ℕ) (n : Tri) (s t : Tri) : Tri :=
  let d0 := s.c0 * t.c0
  let d1 := s.c0 * t.c1 + s.c1 * t.c0
  let d2 := s.c0 * t.c2 + s.c1 * t.c1 + s.c2 * t.c0
  let d3 := s.c1 * t.c2 + s.c2 * t.c1
  let d4 := (s.c2 * t.c2) % p
  let d3 := (d3 + d4 * n.c2) % p
  ⟨(d0 + d3 * n.c0) % p, (d1 + d4 * n.c0 + d3 * n.c1) % p, (d2 + d4 * n.c1 + d3 * n.c2) % p⟩

def powTAux (p : ℕ) (n : Tri) (u : Tri) : (fuel : ℕ) → (e : ℕ) → Tri
  | 0, _ => ⟨1, 0, 0⟩
  | fuel + 1, e =>
    if e = 0 then ⟨1, 0, 0⟩
    else
      let h := powTAux p n u fuel (e / 2)
      if e % 2 = 1 then mulT p n (mulT p n h h) u else mulT p n h h

def powT (p : ℕ) (n u : Tri) (e : ℕ) : Tri := powTAux p n u (e.log2 + 1) e

/-- `b` is the inverse of `X^p - X` modulo the cubic. -/
def check (p : ℕ) (n b : Tri) : Bool :=
  let r := powT p n ⟨0, 1, 0⟩ p
  decide (mulT p n b ⟨r.c0, r.c1 + (p - 1), r.c2⟩ = ⟨1, 0, 0⟩)

section
variable {p : ℕ} [Fact p.Prime]

def ev (x : ZMod p) (t : Tri) : ZMod p := t.c0 + t.c1 * x + t.c2 * x ^ 2

theorem ev_mulT {n : Tri} {x : ZMod p} (hx : x ^ 3 = n.c0 + n.c1 * x + n.c2 * x ^ 2) (s t : Tri) :
    ev x (mulT p n s t) = ev x s * ev x t := by
  simp only [ev, mulT, ZMod.natCast_mod, Nat.cast_add, Nat.cast_mul]
  linear_combination (-((s.c2 : ZMod p) * t.c2) * x - (s.c1 * t.c2 + s.c2 * t.c1) - s.c2 * t.c2 * n.c2) * hx

theorem ev_powTAux {n : Tri} {x : ZMod p} (hx : x ^ 3 = n.c0 + n.c1 * x + n.c2 * x ^ 2) (u : Tri) :
    ∀ fuel e, e < 2 ^ fuel → ev x (powTAux p n u fuel e) = ev x u ^ e := by
  intro fuel
  induction fuel with
  | zero => intro e he; have : e = 0 := by omega
            subst this; simp [powTAux, ev]
  | succ k ih =>
    intro e he
    unfold powTAux
    split
    · next h => subst h; simp [ev]
    · have h2 : e / 2 < 2 ^ k := by rw [pow_succ] at he; omega
      have hh := ih _ h2
      simp only
      split
      · next h =>
        have he' : e = (e / 2 + e / 2) + 1 := by omega
        rw [ev_mulT hx, ev_mulT hx, hh]
        conv_rhs => rw [he', pow_succ, pow_add]
      · next h =>
        have he' : e = (e / 2 + e / 2) := by omega
        rw [ev_mulT hx, hh]
        conv_rhs => rw [he', pow_add]

/-- A checked certificate: the cubic `X³ - n.c2 X² - n.c1 X - n.c0` has no root modulo `p`. -/
theorem no_root (n b : Tri) (h : check p n b = true) (x : ZMod p) : x ^ 3 ≠ n.c0 + n.c1 * x + n.c2 * x ^ 2 := by
  intro hx
  have hp := (Fact.out : p.Prime)
  simp only [check, decide_eq_true_eq] at h
  have h1 := ev_mulT hx b ⟨(powT p n ⟨0, 1, 0⟩ p).c0, (powT p n ⟨0, 1, 0⟩ p).c1 + (p - 1), (powT p n ⟨0, 1, 0⟩ p).c2⟩
  rw [h] at h1
  have h2 : ev x (powT p n ⟨0, 1, 0⟩ p) = x := by
    rw [powT, ev_powTAux hx _ _ _ Nat.lt_log2_self, ZMod.pow_card]
    simp [ev]
  have h3 : ev x ⟨(powT p n ⟨0, 1, 0⟩ p).c0, (powT p n ⟨0, 1, 0⟩ p).c1 + (p - 1), (powT p n ⟨0, 1, 0⟩ p).c2⟩ = 0 := by
    simp only [ev] at h2 ⊢
    rw [Nat.cast_add, Nat.cast_sub hp.one_le, ZMod.natCast_self]
    push_cast
    linear_combination h2
  rw [h3, mul_zero] at h1
  simp [ev] at h1

/-- Euler's criterion as a check the kernel can run. -/
theorem not_isSquare_of_pow (a : ℕ) (h : Big.powMod a (p / 2) p = p - 1) (h2 : 2 < p) : ¬ IsSquare (a : ZMod p) := by
  have hp := (Fact.out : p.Prime)
  have hpow : (a : ZMod p) ^ (p / 2) = -1 := by
    have := congrArg (Nat.cast : ℕ → ZMod p) h
    rwa [Big.powMod_eq, ZMod.natCast_mod, Nat.cast_sub hp.one_le, ZMod.natCast_self, Nat.cast_pow, Nat.cast_one,
      zero_sub] at this
  have hne : (-1 : ZMod p) ≠ 1 := by
    haveI : Fact (2 < p) := ⟨h2⟩
    exact ZMod.neg_one_ne_one
  intro hs
  by_cases h0 : (a : ZMod p) = 0
  · rw [h0, zero_pow (by omega)] at hpow
    exact one_ne_zero (neg_eq_zero.1 hpow.symm)
  · exact hne (hpow.symm.trans ((ZMod.euler_criterion p h0).1 hs))

theorem isSquare_of_pow (a : ℕ) (h : Big.powMod a (p / 2) p = 1) (h2 : 2 < p) : IsSquare (a : ZMod p) := by
  have hp := (Fact.out : p.Prime)
  have hpow : (a : ZMod p) ^ (p / 2) = 1 := by
    have := congrArg (Nat.cast : ℕ → ZMod p) h
    rwa [Big.powMod_eq, ZMod.natCast_mod, Nat.cast_pow, Nat.cast_one] at this
  by_cases h0 : (a : ZMod p) = 0
  · rw [h0]; exact IsSquare.zero
  · exact (ZMod.euler_criterion p h0).2 hpow

end

end Redox.NoRoot
