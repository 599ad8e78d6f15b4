import Verif.Props.DisplayProps
import Verif.Props.QuadApi

/-!
# The printed texts, character by character (C12, C57, C63, C64)
-/

namespace Redox

/-- The decimal text of a natural number, as Lean itself prints it. -/
def Spec.decimal (n : ℕ) : List Byte := (Nat.toDigits 10 n).map fun c => UInt8.ofNat c.toNat

namespace Props

open Spec

theorem digit_char {d : ℕ} (h : d < 10) : UInt8.ofNat d.digitChar.toNat = UInt8.ofNat (48 + d) := by
  interval_cases d <;> rfl

theorem digits_decimal : ∀ fuel n, n ≠ 0 → n < 10 ^ fuel →
    ((Big.digits 10 fuel n).map fun d => UInt8.ofNat (48 + d)).reverse = decimal n := by
  intro fuel
  induction fuel with
  | zero => intro n h0 h1; omega
  | succ fuel ih =>
    intro n h0 h1
    rw [Big.digits, if_neg h0, List.map_cons, List.reverse_cons]
    by_cases h : n < 10
    · rw [Nat.div_eq_of_lt h, decimal, Nat.toDigits_of_lt_base h, Nat.mod_eq_of_lt h, List.map_singleton, digit_char h]
      cases fuel <;> rfl
    · rw [ih (n / 10) (by omega) (by rw [pow_succ] at h1; omega), decimal, decimal, Nat.toDigits_of_base_le (b := 10) (by decide) (by omega : 10 ≤ n),
        List.map_append, List.map_singleton, digit_char (Nat.mod_lt _ (by decide))]

theorem showNat_eq (n : ℕ) : Big.showNat n = decimal n := by
  rw [Big.showNat]
  by_cases h : n = 0
  · rw [if_pos h, h]; rfl
  · rw [if_neg h]
    exact digits_decimal _ _ h (lt_of_lt_of_le (Big.lt_two_pow_bits n) (Nat.pow_le_pow_left (by decide) _))

theorem showInt_eq {z : ℤ} (h : 0 ≤ z) : Big.showInt z = decimal z.toNat := by
  rw [Big.showInt, if_neg (not_lt.2 h), showNat_eq]
  congr 1
  omega

theorem display_eq {p : ℕ} (hp : 1 ≤ p) {x : FpElt} (h : Canon p x) : x.display = R.ok (decimal x.n.toNat) := by
  have h0 : x.f.p ≠ 0 := by rw [h.1]; exact (by omega : p ≠ 0)
  have h1 : x.n % (x.f.p : ℤ) = x.n := Int.emod_eq_of_lt h.2.1 (by rw [h.1]; exact h.2.2)
  simp [FpElt.display, Big.modFloor, h0, Int.fmod_eq_emod_of_nonneg, h1, showInt_eq h.2.1]

/-- C12, C57, texts of field elements: an element of a prime field prints as the decimal digits of its canonical representative,
an element of the quadratic field as those of its two coordinates around `+i*`. -/
theorem C12_text (p : ℕ) (hp : 1 ≤ p) : (∀ x, Canon p x → x.display = R.ok (decimal x.n.toNat)) ∧
    ∀ x, Canon2 p x → x.display = R.ok (decimal x.n0.n.toNat ++ ascii! "+i*" ++ decimal x.n1.n.toNat) := by
  refine ⟨fun x hx => display_eq hp hx, fun x hx => ?_⟩
  rw [C57_display p hp x hx, showNat_eq, showNat_eq]

/-- C63, text of a scalar: the decimal digits of the residue of `k` in `0 … r − 1`. -/
theorem C63_text (r : ℕ) (hr : 1 ≤ r) (k : ℤ) : ∃ s, Scalar.new k r = R.ok s ∧ s.display = decimal (k % r).toNat := by
  obtain ⟨s, h1, h2, -⟩ := C63_scalar r hr k
  exact ⟨s, h1, by rw [h2, showInt_eq (Int.emod_nonneg _ (by omega))]⟩

/-- C64, texts of fields: `GF(p)` and `GF(p)^2`, `p` in decimal. -/
theorem C64_text_field (p : ℕ) : (Fp.new p).display = ascii! "GF(" ++ decimal p ++ ascii! ")" ∧
    (Fp2.new p).display = ascii! "GF(" ++ decimal p ++ ascii! ")^2" := by
  obtain ⟨h1, h2, -⟩ := C64_field p p
  exact ⟨by rw [h1, showNat_eq], by rw [h2, showNat_eq]⟩

/-- C64, texts of curves, character by character: a headline with the equation, then one line for each coefficient with its letter and
the decimal digits of its canonical representative (byte 10 is the newline). -/
theorem C64_text_curve (p : ℕ) (hp : 1 ≤ p) :
    (∀ e : Weierstrass.Curve, Canon p e.a → Canon p e.b → e.display = R.ok (ascii! "Weierstrass Curve y^2=x^3+ax+b" ++
      [10] ++ ascii! "a: " ++ decimal e.a.n.toNat ++ [10] ++ ascii! "b: " ++ decimal e.b.n.toNat)) ∧
    (∀ e : Montgomery.Curve, Canon p e.a → Canon p e.b → e.display = R.ok (ascii! "Montgomery Curve by^2=x^3+ax^2+x" ++
      [10] ++ ascii! "a: " ++ decimal e.a.n.toNat ++ [10] ++ ascii! "b: " ++ decimal e.b.n.toNat)) ∧
    ∀ e : Edwards.Curve, Canon p e.a → Canon p e.d → e.display = R.ok (ascii! "Twisted Edwards Curve ax^2+y^2=1+dx^2y^2" ++
      [10] ++ ascii! "a: " ++ decimal e.a.n.toNat ++ [10] ++ ascii! "d: " ++ decimal e.d.n.toNat) := by
  refine ⟨fun e h1 h2 => ?_, fun e h1 h2 => ?_, fun e h1 h2 => ?_⟩
  · simp [Weierstrass.Curve.display, display_eq hp h1, display_eq hp h2]
  · simp [Montgomery.Curve.display, display_eq hp h1, display_eq hp h2]
  · simp [Edwards.Curve.display, display_eq hp h1, display_eq hp h2]

/-- C64, texts of points, character by character: an empty line, then one line for each stored coordinate with its letter. -/
theorem C64_text_point (p : ℕ) (hp : 1 ≤ p) :
    (∀ P : Weierstrass.Point, Canon p P.c.x → Canon p P.c.y → Canon p P.c.z → P.display = R.ok (
      [10] ++ ascii! "x: " ++ decimal P.c.x.n.toNat ++ [10] ++ ascii! "y: " ++ decimal P.c.y.n.toNat ++
      [10] ++ ascii! "z: " ++ decimal P.c.z.n.toNat)) ∧
    (∀ P : Montgomery.Point, Canon p P.c.x → Canon p P.c.y → Canon p P.c.z → P.display = R.ok (
      [10] ++ ascii! "x: " ++ decimal P.c.x.n.toNat ++ [10] ++ ascii! "y: " ++ decimal P.c.y.n.toNat ++
      [10] ++ ascii! "z: " ++ decimal P.c.z.n.toNat)) ∧
    ∀ P : Edwards.Point, Canon p P.c.x → Canon p P.c.y → Canon p P.c.t → Canon p P.c.z → P.display = R.ok (
      [10] ++ ascii! "x: " ++ decimal P.c.x.n.toNat ++ [10] ++ ascii! "y: " ++ decimal P.c.y.n.toNat ++
      [10] ++ ascii! "t: " ++ decimal P.c.t.n.toNat ++ [10] ++ ascii! "z: " ++ decimal P.c.z.n.toNat) := by
  refine ⟨fun P h1 h2 h3 => ?_, fun P h1 h2 h3 => ?_, fun P h1 h2 h3 h4 => ?_⟩
  · simp [Weierstrass.Point.display, display_eq hp h1, display_eq hp h2, display_eq hp h3]
  · simp [Montgomery.Point.display, display_eq hp h1, display_eq hp h2, display_eq hp h3]
  · simp [Edwards.Point.display, display_eq hp h1, display_eq hp h2, display_eq hp h3, display_eq hp h4]

/-- The hypotheses are met, and the texts are the expected ones: −3 in the integers mod 10007. Curves and points are in `Witness/Text.lean`. -/
example : decimal 1907 = ascii! "1907" ∧ Canon 10007 ⟨10004, ⟨10007⟩⟩ ∧
    (⟨10004, ⟨10007⟩⟩ : FpElt).display = R.ok (ascii! "10004") := by
  have h : Canon 10007 ⟨10004, ⟨10007⟩⟩ := ⟨rfl, by decide, by decide⟩
  exact ⟨by decide, h, by rw [(C12_text 10007 (by decide)).1 _ h]; decide⟩

end Props
end Redox
