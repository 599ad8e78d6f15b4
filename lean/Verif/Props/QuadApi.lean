import Verif.Props.Quad
import Verif.Props.FieldParse

/-!
# C56, C57: the rest of the quadratic-extension API — division, predicates, parsing and printing
-/

namespace Redox.Props

open Spec
open scoped QuadraticAlgebra

/-! ## C56 -/

theorem mul_el2 {p : ℕ} [NeZero p] (x y : GFp2 p) : (el2 x).mul (el2 y) = R.ok (el2 (x * y)) := by
  have hp : 1 ≤ p := Nat.one_le_iff_ne_zero.2 (NeZero.ne p)
  have := (C13_ring p hp (el2 x) (el2 y) (canon2_iff.2 ⟨_, rfl⟩) (canon2_iff.2 ⟨_, rfl⟩)).2.2.1
  rwa [val2_el2, val2_el2, returns2_iff] at this

/-- What `x / y` computes: `x` times the inverse of the conjugate of `y`. -/
theorem div_returns (p : ℕ) [Fact p.Prime] (h : p % 4 = 3) (x y : GFp2 p) :
    (el2 x).div (el2 y) =
      R.ok (el2 (x * ⟨(y.re * y.re + y.im * y.im)⁻¹ * y.re, (y.re * y.re + y.im * y.im)⁻¹ * y.im⟩)) := by
  have hi := inv_returns p h y
  simp only [Fp2Elt.u32Div, beq_self_eq_true, doIfEq_true] at hi
  rw [Fp2Elt.div, hi, R.ok_bind, mul_el2]

/-- C56, division, exactly: `x / y` never panics for nonzero `y`, and `(x / y) * y = x` holds if and only if `x` is zero
or `y` has no imaginary part. Partial: the property claims it for every nonzero `y`; see `C56_refuted`. -/
theorem C56_div_partial (p : ℕ) (hp : p.Prime) (h : p % 4 = 3) (x y : Fp2Elt) (hx : Canon2 p x) (hy : Canon2 p y)
    (hy0 : val2 p y ≠ 0) :
    ∃ q, x.div y = R.ok q ∧ Canon2 p q ∧ (q.mul y = R.ok x ↔ val2 p x = 0 ∨ y.n1.n = 0) := by
  haveI := Fact.mk hp
  haveI : Fact (2 < p) := ⟨by omega⟩
  obtain ⟨x, rfl⟩ := canon2_iff.1 hx
  obtain ⟨y, rfl⟩ := canon2_iff.1 hy
  rw [val2_el2] at hy0 ⊢
  refine ⟨_, div_returns p h x y, canon2_iff.2 ⟨_, rfl⟩, ?_⟩
  have hN : y.re * y.re + y.im * y.im ≠ 0 := norm_ne_zero h (by
    by_contra hc
    push Not at hc
    exact hy0 (QuadraticAlgebra.ext hc.1 hc.2))
  have h2 := two_ne_zero_of_odd h
  have hz : (el2 y).n1.n = 0 ↔ y.im = 0 := by
    have := isZero_el_iff y.im
    simpa [FpElt.isZero, el2] using this
  rw [mul_el2, R.ok.injEq, el2_inj, hz]
  generalize hN' : y.re * y.re + y.im * y.im = N at hN
  obtain ⟨a, b⟩ := x
  obtain ⟨c, d⟩ := y
  simp only at hN' ⊢
  rw [QuadraticAlgebra.ext_iff]
  simp only [QuadraticAlgebra.re_mul, QuadraticAlgebra.im_mul]
  constructor
  · rintro ⟨h1, h3⟩
    -- (a + bi)(c + di)² = N (a + bi); subtract (c + di)(c - di)(a + bi)
    by_cases hd : d = 0
    · exact Or.inr hd
    left
    field_simp at h1 h3
    have e1 : d * (b * c + a * d) = 0 := by
      have : 2 * (d * (b * c + a * d)) = 0 := by linear_combination -h1 + a * hN'
      exact (mul_eq_zero.1 this).resolve_left h2
    have e2 : d * (a * c - b * d) = 0 := by
      have : 2 * (d * (a * c - b * d)) = 0 := by linear_combination h3 - b * hN'
      exact (mul_eq_zero.1 this).resolve_left h2
    have f1 := (mul_eq_zero.1 e1).resolve_left hd
    have f2 := (mul_eq_zero.1 e2).resolve_left hd
    have ha : a * N = 0 := by linear_combination c * f2 + d * f1 - a * hN'
    have hb : b * N = 0 := by linear_combination c * f1 - d * f2 - b * hN'
    have ha0 := (mul_eq_zero.1 ha).resolve_right hN
    have hb0 := (mul_eq_zero.1 hb).resolve_right hN
    exact QuadraticAlgebra.ext ha0 hb0
  · rintro (h0 | hd)
    · have h1 := congrArg QuadraticAlgebra.re h0
      have h3 := congrArg QuadraticAlgebra.im h0
      simp only [QuadraticAlgebra.re_zero, QuadraticAlgebra.im_zero] at h1 h3
      subst h1 h3
      constructor <;> ring
    · subst hd
      have hc : c * c = N := by linear_combination hN'
      constructor
      · field_simp
        linear_combination a * hc
      · field_simp
        linear_combination b * hc

/-- C56, division by zero is total and gives zero. -/
theorem C56_div_zero (p : ℕ) (hp : p.Prime) (h : p % 4 = 3) (x y : Fp2Elt) (hx : Canon2 p x) (hy : Canon2 p y)
    (hy0 : val2 p y = 0) : Returns2 p (x.div y) 0 := by
  haveI := Fact.mk hp
  obtain ⟨x, rfl⟩ := canon2_iff.1 hx
  obtain ⟨y, rfl⟩ := canon2_iff.1 hy
  rw [val2_el2] at hy0
  subst hy0
  rw [div_returns p h, returns2_iff, R.ok.injEq, el2_inj]
  ext <;> simp

/-- C56 is refuted for every prime `p ≡ 3 (mod 4)`: `(1 / i) * i` is not `1`. -/
theorem C56_refuted (p : ℕ) (hp : p.Prime) (h : p % 4 = 3) :
    ∃ x y q, Canon2 p x ∧ Canon2 p y ∧ val2 p y ≠ 0 ∧ x.div y = R.ok q ∧ q.mul y ≠ R.ok x := by
  haveI := Fact.mk hp
  haveI : Fact (1 < p) := ⟨hp.one_lt⟩
  have hy0 : (⟨0, 1⟩ : GFp2 p) ≠ 0 := by rw [Ne, QuadraticAlgebra.ext_iff]; simp
  have hy0' : val2 p (el2 (⟨0, 1⟩ : GFp2 p)) ≠ 0 := by rwa [val2_el2]
  obtain ⟨q, hq, -, hiff⟩ := C56_div_partial p hp h (el2 1) (el2 ⟨0, 1⟩) (canon2_iff.2 ⟨_, rfl⟩)
    (canon2_iff.2 ⟨_, rfl⟩) hy0'
  refine ⟨_, _, q, canon2_iff.2 ⟨_, rfl⟩, canon2_iff.2 ⟨_, rfl⟩, hy0', hq, ?_⟩
  rw [Ne, hiff, val2_el2]
  rintro (h1 | h1)
  · have := congrArg QuadraticAlgebra.re h1
    simp at this
  · simp [el2, cast_one_int] at h1

/-- C56, predicates and setters: `is_zero` and `is_one` test for the ring's `0` and `1`; `set_zero` and `set_one` store
them and keep the field; `cmov` selects its second argument exactly when the flag is set. -/
theorem C56_predicates (p : ℕ) (hp : 2 ≤ p) (x y : Fp2Elt) (hx : Canon2 p x) :
    (x.isZero = true ↔ val2 p x = 0) ∧ (x.isOne = true ↔ val2 p x = 1) ∧
    (Canon2 p x.setZero ∧ val2 p x.setZero = 0) ∧ (Canon2 p x.setOne ∧ val2 p x.setOne = 1) ∧
    Fp2Elt.cmov x y true = y ∧ Fp2Elt.cmov x y false = x := by
  haveI : Fact (1 < p) := ⟨by omega⟩
  haveI : NeZero p := ⟨by omega⟩
  obtain ⟨x, rfl⟩ := canon2_iff.1 hx
  have hone : ∀ z : ZMod p, (el z).isOne = true ↔ z = 1 := fun z => by simp
  have hzero : ∀ z : ZMod p, (el z).isZero = true ↔ z = 0 := fun z => by simp
  have s0 : (el2 x).setZero = el2 (0 : GFp2 p) := by
    simp [Fp2Elt.setZero, FpElt.setZero, el2, el]
  have s1 : (el2 x).setOne = el2 (1 : GFp2 p) := by
    simp [Fp2Elt.setOne, FpElt.setOne, FpElt.setZero, el2, el, cast_one_int]
  rw [s0, s1]
  simp only [val2_el2]
  refine ⟨?_, ?_, ⟨canon2_iff.2 ⟨_, rfl⟩, trivial⟩, ⟨canon2_iff.2 ⟨_, rfl⟩, trivial⟩, rfl, rfl⟩
  · rw [Fp2Elt.isZero, Bool.and_eq_true, QuadraticAlgebra.ext_iff]
    simp only [el2, hzero]; rfl
  · rw [Fp2Elt.isOne, Bool.and_eq_true, QuadraticAlgebra.ext_iff]
    simp only [el2, hzero, hone]; rfl

example : (Fp2Elt.mk ⟨3, ⟨7⟩⟩ ⟨5, ⟨7⟩⟩ ⟨⟨7⟩⟩).div ⟨⟨2, ⟨7⟩⟩, ⟨0, ⟨7⟩⟩, ⟨⟨7⟩⟩⟩ = R.ok ⟨⟨5, ⟨7⟩⟩, ⟨6, ⟨7⟩⟩, ⟨⟨7⟩⟩⟩ ∧
    (Fp2Elt.mk ⟨1, ⟨7⟩⟩ ⟨0, ⟨7⟩⟩ ⟨⟨7⟩⟩).isOne = true ∧ (Fp2Elt.mk ⟨1, ⟨7⟩⟩ ⟨2, ⟨7⟩⟩ ⟨⟨7⟩⟩).isOne = false ∧
    (Fp2Elt.mk ⟨0, ⟨7⟩⟩ ⟨2, ⟨7⟩⟩ ⟨⟨7⟩⟩).isZero = false := by
  refine ⟨?_, ?_, ?_, ?_⟩ <;> decide +kernel

/-! ## C57 -/

theorem digitChar_ne_comma (d : ℕ × Bool) (h : d.1 < 16) : digitChar d ≠ 44 := by
  obtain ⟨d, u⟩ := d
  simp only at h
  interval_cases d <;> cases u <;> decide

theorem literal_no_comma (neg : Bool) (form : ℕ × List Byte) (hf : form ∈ literalForms) (ds : List (ℕ × Bool))
    (hd : ∀ d ∈ ds, d.1 < form.1) : ∀ c ∈ literal neg form.2 ds, c ≠ 44 := by
  have hr : form.1 ≤ 16 ∧ ∀ c ∈ form.2, c ≠ 44 := by
    simp only [literalForms, List.mem_cons, List.not_mem_nil, or_false] at hf
    rcases hf with rfl | rfl | rfl | rfl <;> refine ⟨by simp, by decide⟩
  intro c hc
  simp only [literal, List.mem_append, List.mem_map] at hc
  rcases hc with (hc | hc) | ⟨d, hd', rfl⟩
  · cases neg <;> simp at hc
    subst hc; decide
  · exact hr.2 c hc
  · exact digitChar_ne_comma d (by have := hd d hd'; omega)

/-- C57. Two literals separated by a comma parse to `a + b·i`, where `a`, `b` are the integers they denote: any of the
four literal forms for each, any number of digits. -/
theorem C57_parse (p : ℕ) (hp : 1 ≤ p) (neg₀ neg₁ : Bool) (form₀ form₁ : ℕ × List Byte) (hf₀ : form₀ ∈ literalForms)
    (hf₁ : form₁ ∈ literalForms) (ds₀ ds₁ : List (ℕ × Bool)) (hne₀ : ds₀ ≠ []) (hne₁ : ds₁ ≠ [])
    (hd₀ : ∀ d ∈ ds₀, d.1 < form₀.1) (hd₁ : ∀ d ∈ ds₁, d.1 < form₁.1) :
    Returns2 p ((Fp2.new p).fromStr (literal neg₀ form₀.2 ds₀ ++ ascii! "," ++ literal neg₁ form₁.2 ds₁))
      ⟨((if neg₀ then -(litValue form₀.1 ds₀ : ℤ) else litValue form₀.1 ds₀ : ℤ) : ZMod p),
       ((if neg₁ then -(litValue form₁.1 ds₁ : ℤ) else litValue form₁.1 ds₁ : ℤ) : ZMod p)⟩ := by
  haveI : NeZero p := ⟨by omega⟩
  have hnc := literal_no_comma neg₀ form₀ hf₀ ds₀ hd₀
  have h0 := C12_parse p hp neg₀ form₀ hf₀ ds₀ hne₀ hd₀
  have h1 := C12_parse p hp neg₁ form₁ hf₁ ds₁ hne₁ hd₁
  generalize literal neg₀ form₀.2 ds₀ = s₀ at *
  generalize literal neg₁ form₁.2 ds₁ = s₁ at *
  have ht : (s₀ ++ ascii! "," ++ s₁).takeWhile (· ≠ 44) = s₀ := by
    rw [List.append_assoc, List.takeWhile_append_of_pos (by simpa using hnc)]
    simp
  have hdw : (s₀ ++ ascii! "," ++ s₁).dropWhile (· ≠ 44) = 44 :: s₁ := by
    rw [List.append_assoc, List.dropWhile_append_of_pos (by simpa using hnc)]
    simp
  rw [returns2_iff, Fp2.fromStr, ht, hdw]
  simp only [Fp.new] at h0 h1
  simp only [Fp2.new, Fp.new, h0, h1, elt_eq, R.ok_bind]
  rfl

/-- C57, missing comma: every string without a comma panics. -/
theorem C57_no_comma (p : ℕ) (s : List Byte) (hs : (44 : Byte) ∉ s) : ∃ why, (Fp2.new p).fromStr s = R.panic why := by
  have hd : s.dropWhile (· ≠ 44) = [] := by
    induction s with
    | nil => rfl
    | cons c s ih =>
      simp only [List.mem_cons, not_or] at hs
      rw [List.dropWhile_cons_of_pos (by simpa using Ne.symm hs.1)]
      exact ih hs.2
  rw [Fp2.fromStr, hd]
  cases (Fp2.new p).base.fromStr (s.takeWhile (· ≠ 44)) with
  | ok a => exact ⟨.indexOutOfRange, rfl⟩
  | panic e => exact ⟨e, rfl⟩

theorem showNat_no_comma (n : ℕ) : (44 : Byte) ∉ Big.showNat n := by
  obtain ⟨ds, -, hd, -, hs⟩ := showNat_literal n
  rw [hs]
  intro hc
  obtain ⟨d, hd', h⟩ := List.mem_map.1 hc
  exact digitChar_ne_comma d (by have := hd d hd'; omega) h

/-- C57, printing: an element prints as the decimal digits of its two coordinates around `+i*`. -/
theorem C57_display (p : ℕ) (hp : 1 ≤ p) (x : Fp2Elt) (hx : Canon2 p x) :
    x.display = R.ok (Big.showNat x.n0.n.toNat ++ ascii! "+i*" ++ Big.showNat x.n1.n.toNat) := by
  have h : ∀ a : FpElt, Canon p a → a.display = R.ok (Big.showNat a.n.toNat) := by
    rintro ⟨n, f⟩ ⟨hf, h0, h1⟩
    simp only at hf h0 h1
    subst hf
    have hp0 : p ≠ 0 := by omega
    have hm : Int.fmod n (p : ℤ) = n := by
      rw [Int.fmod_eq_emod_of_nonneg _ (by positivity), Int.emod_eq_of_lt h0 h1]
    have : n.natAbs = n.toNat := by omega
    simp [FpElt.display, Big.modFloor, hp0, hm, Big.showInt, this, not_lt.2 h0]
  simp [Fp2Elt.display, h _ hx.2.1, h _ hx.2.2]

/-- C57, round trip refuted for every element of every field: what `Display` prints contains no comma, so parsing it
back always panics. -/
theorem C57_refuted (p : ℕ) (hp : 1 ≤ p) (x : Fp2Elt) (hx : Canon2 p x) :
    ∃ s why, x.display = R.ok s ∧ (Fp2.new p).fromStr s = R.panic why := by
  refine ⟨_, _, C57_display p hp x hx, (C57_no_comma p _ ?_).choose_spec⟩
  simp only [List.mem_append, not_or]
  exact ⟨⟨showNat_no_comma _, by decide⟩, showNat_no_comma _⟩

/-- C57, what does round-trip: the two printed coordinates joined by a comma parse back to the element. -/
theorem C57_roundtrip_partial (p : ℕ) (hp : 1 ≤ p) (x : Fp2Elt) (hx : Canon2 p x) :
    ∃ s₀ s₁, x.n0.display = R.ok s₀ ∧ x.n1.display = R.ok s₁ ∧
      (Fp2.new p).fromStr (s₀ ++ ascii! "," ++ s₁) = R.ok x := by
  haveI : NeZero p := ⟨by omega⟩
  have hx' := hx
  obtain ⟨x, rfl⟩ := canon2_iff.1 hx
  have h : ∀ z : ZMod p, ∃ ds : List (ℕ × Bool), ds ≠ [] ∧ (∀ d ∈ ds, d.1 < 10) ∧
      (el z).display = R.ok (literal false [] ds) ∧ ((litValue 10 ds : ℤ) : ZMod p) = z := by
    intro z
    obtain ⟨ds, hne, hd, hv, hs⟩ := showNat_literal (z.cast : ℤ).natAbs
    have h0 := cast_nonneg z
    refine ⟨ds, hne, hd, ?_, ?_⟩
    · simp [FpElt.display, modFloor_eq, Big.showInt, not_lt.2 h0, hs, literal]
    · rw [hv, Int.natAbs_of_nonneg h0]; simp
  obtain ⟨d0, n0, l0, s0, v0⟩ := h x.re
  obtain ⟨d1, n1, l1, s1, v1⟩ := h x.im
  refine ⟨_, _, s0, s1, ?_⟩
  have := C57_parse p hp false false (10, []) (10, []) (by simp [literalForms]) (by simp [literalForms]) d0 d1 n0 n1 l0 l1
  rw [returns2_iff] at this
  rw [this]
  simp only [Bool.false_eq_true, if_false]
  rw [v0, v1]

example : (Fp2.new 1009).fromStr (ascii! "-0x1Af,12") = R.ok ⟨⟨578, ⟨1009⟩⟩, ⟨12, ⟨1009⟩⟩, ⟨⟨1009⟩⟩⟩ ∧
    (Fp2Elt.mk ⟨578, ⟨1009⟩⟩ ⟨12, ⟨1009⟩⟩ ⟨⟨1009⟩⟩).display = R.ok (ascii! "578+i*12") ∧
    (Fp2.new 1009).fromStr (ascii! "578+i*12") = R.panic .unwrapNone := by
  refine ⟨?_, ?_, ?_⟩ <;> decide +kernel

end Redox.Props
