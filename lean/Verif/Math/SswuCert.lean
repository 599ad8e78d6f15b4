import Verif.Math.NoRoot
import Verif.Spec.Maps
import Mathlib.Tactic.FieldSimp
import Mathlib.Tactic.Ring

/-!
# Which inputs of the simplified SWU map have a given abscissa: kernel-checked certificates

For a given abscissa `r`, the inputs `u` are found by solving two quadratic equations for `t = z u²`.
-/

namespace Redox.SswuCert

open Spec

/-- Why `t = z u²` has no solution, or its solutions `±u`. -/
inductive TCert where
  | nsq
  | root (u : ℕ)

/-- Why `t² + B t + C = 0` has no solution, or its two solutions. -/
inductive QCert where
  | none
  | two (t1 : ℕ) (c1 : TCert) (t2 : ℕ) (c2 : TCert)

def nsqB (p n : ℕ) : Bool := Big.powMod (n % p) (p / 2) p == p - 1

def TCert.ok (p z t : ℕ) : TCert → Bool
  | .nsq => nsqB p (z * t)
  | .root u => z * (u * u) % p == t % p

def TCert.us : TCert → List ℕ
  | .nsq => []
  | .root u => [u]

def QCert.ok (p z B C : ℕ) : QCert → Bool
  | .none => nsqB p (B * B + (p - 4 * C % p))
  | .two t1 c1 t2 c2 => (t1 + t2 + B) % p == 0 && t1 * t2 % p == C % p && c1.ok p z t1 && c2.ok p z t2

def QCert.us : QCert → List ℕ
  | .none => []
  | .two _ c1 _ c2 => c1.us ++ c2.us

/-- Certificate for one abscissa. -/
structure RCert where
  r : ℕ
  k : ℕ
  l : ℕ
  q1 : QCert
  q2 : QCert

def RCert.ok (p z a b : ℕ) (c : RCert) : Bool :=
  c.k * (a * c.r + b) % p == b % p && c.l * b % p == (a * c.r + b) % p && z * a * c.r % p != b % p &&
    c.q1.ok p z 1 c.k && c.q2.ok p z c.l c.l

def RCert.us (c : RCert) : List ℕ := c.q1.us ++ c.q2.us

variable {p : ℕ} [Fact p.Prime]

theorem cast_of_beq {m n : ℕ} (h : (m % p == n % p) = true) : (m : ZMod p) = n :=
  (ZMod.natCast_eq_natCast_iff' _ _ _).2 (by simpa using h)

theorem not_sq (hp : 2 < p) {n : ℕ} (h : nsqB p n = true) : ¬ IsSquare (n : ZMod p) := by
  have := NoRoot.not_isSquare_of_pow (p := p) (n % p) (by simpa [nsqB] using h) hp
  rwa [ZMod.natCast_mod] at this

theorem tcert (hp : 2 < p) {z t : ℕ} {c : TCert} (h : c.ok p z t = true) (hz : (z : ZMod p) ≠ 0) (u : ZMod p)
    (hu : (t : ZMod p) = z * u ^ 2) : ∃ w ∈ c.us, u = (w : ZMod p) ∨ u = -(w : ZMod p) := by
  cases c with
  | nsq =>
    refine absurd ?_ (not_sq hp h)
    exact ⟨z * u, by push_cast; rw [hu]; ring⟩
  | root w =>
    have hw : ((z * (w * w) : ℕ) : ZMod p) = t := cast_of_beq h
    push_cast at hw
    refine ⟨w, by simp [TCert.us], ?_⟩
    have e : (z : ZMod p) * ((u - w) * (u + w)) = 0 := by linear_combination -hw - hu
    rcases mul_eq_zero.1 ((mul_eq_zero.1 e).resolve_left hz) with h1 | h1
    · left; linear_combination h1
    · right; linear_combination h1

theorem qcert (hp : 2 < p) {z B C : ℕ} {c : QCert} (h : c.ok p z B C = true) (hz : (z : ZMod p) ≠ 0) (u t : ZMod p)
    (hu : t = z * u ^ 2) (ht : t ^ 2 + B * t + C = 0) : ∃ w ∈ c.us, u = (w : ZMod p) ∨ u = -(w : ZMod p) := by
  cases c with
  | none =>
    refine absurd ?_ (not_sq hp h)
    refine ⟨2 * t + B, ?_⟩
    have hle : 4 * C % p ≤ p := (Nat.mod_lt _ (by omega)).le
    rw [Nat.cast_add, Nat.cast_sub hle, ZMod.natCast_mod]
    push_cast
    rw [ZMod.natCast_self]
    linear_combination -4 * ht
  | two t1 c1 t2 c2 =>
    simp only [QCert.ok, Bool.and_eq_true] at h
    obtain ⟨⟨⟨h1, h2⟩, h3⟩, h4⟩ := h
    have e1 : ((t1 + t2 + B : ℕ) : ZMod p) = (0 : ℕ) := cast_of_beq (by simpa using h1)
    have e2 : ((t1 * t2 : ℕ) : ZMod p) = C := cast_of_beq h2
    push_cast at e1 e2
    have e : (t - t1) * (t - t2) = 0 := by linear_combination ht - t * e1 + e2
    rcases mul_eq_zero.1 e with h' | h'
    · obtain ⟨w, hw, hh⟩ := tcert hp h3 hz u (by rw [← hu]; linear_combination -h')
      exact ⟨w, by simp [QCert.us, hw], hh⟩
    · obtain ⟨w, hw, hh⟩ := tcert hp h4 hz u (by rw [← hu]; linear_combination -h')
      exact ⟨w, by simp [QCert.us, hw], hh⟩

/-- The certificate lists all inputs, up to sign, with abscissa `r`. -/
theorem rcert (hp : 2 < p) {z a b : ℕ} {c : RCert} (h : c.ok p z a b = true) (hz : (z : ZMod p) ≠ 0)
    (ha : (a : ZMod p) ≠ 0) (hb : (b : ZMod p) ≠ 0) (hs : IsSquare (rhs (a : ZMod p) b (b / (z * a)))) (u : ZMod p)
    (hu : sswuX (a : ZMod p) b z u = c.r) : ∃ w ∈ c.us, u = (w : ZMod p) ∨ u = -(w : ZMod p) := by
  simp only [RCert.ok, Bool.and_eq_true] at h
  obtain ⟨⟨⟨⟨h1, h2⟩, h3⟩, h4⟩, h5⟩ := h
  have e1 : ((c.k * (a * c.r + b) : ℕ) : ZMod p) = b := cast_of_beq h1
  have e2 : ((c.l * b : ℕ) : ZMod p) = (a * c.r + b : ℕ) := cast_of_beq h2
  have e3 : ((z * a * c.r : ℕ) : ZMod p) ≠ (b : ℕ) := by
    intro hh
    have := (ZMod.natCast_eq_natCast_iff' _ _ _).1 hh
    simp [this] at h3
  push_cast at e1 e2 e3
  have hd : (a * c.r + b : ZMod p) ≠ 0 := by
    intro h0
    rw [h0, mul_zero] at e1
    exact hb e1.symm
  generalize (c.r : ZMod p) = r at *
  simp only [sswuX] at hu
  generalize ht : (z : ZMod p) * u ^ 2 = t at *
  have fin1 : t ^ 2 + t ≠ 0 → (-b / a : ZMod p) * (1 + 1 / (t ^ 2 + t)) = r →
      ∃ w ∈ c.us, u = (w : ZMod p) ∨ u = -(w : ZMod p) := by
    intro hne hr
    have e : (a * r + b : ZMod p) * (t ^ 2 + ((1 : ℕ) : ZMod p) * t + c.k) = 0 := by
      have hr' : -(b : ZMod p) * ((t ^ 2 + t) + 1) = a * r * (t ^ 2 + t) := by
        generalize t ^ 2 + t = s at *
        field_simp at hr
        linear_combination hr
      push_cast
      linear_combination -hr' + e1
    obtain ⟨w, hw, hh⟩ := qcert hp h4 hz u t ht.symm ((mul_eq_zero.1 e).resolve_left hd)
    exact ⟨w, by simp [RCert.us, hw], hh⟩
  have fin2 : t ^ 2 + t ≠ 0 → t * ((-b / a : ZMod p) * (1 + 1 / (t ^ 2 + t))) = r →
      ∃ w ∈ c.us, u = (w : ZMod p) ∨ u = -(w : ZMod p) := by
    intro hne hr
    have ht0 : t ≠ 0 := by rintro rfl; simp at hne
    have e : (b * t : ZMod p) * (t ^ 2 + (c.l : ZMod p) * t + c.l) = 0 := by
      have hr' : -(b : ZMod p) * t * ((t ^ 2 + t) + 1) = a * r * (t ^ 2 + t) := by
        generalize t ^ 2 + t = s at *
        field_simp at hr
        linear_combination hr
      linear_combination -hr' + (t ^ 2 + t) * e2
    obtain ⟨w, hw, hh⟩ := qcert hp h5 hz u t ht.symm ((mul_eq_zero.1 e).resolve_left (mul_ne_zero hb ht0))
    exact ⟨w, by simp [RCert.us, hw], hh⟩
  by_cases h0 : t ^ 2 + t = 0
  · rw [if_pos h0, if_pos hs] at hu
    exfalso; apply e3
    rw [← hu]; field_simp
  · rw [if_neg h0] at hu
    split_ifs at hu
    · exact fin1 h0 hu
    · exact fin2 h0 hu

end Redox.SswuCert
