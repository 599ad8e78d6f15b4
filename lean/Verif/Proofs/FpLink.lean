import Mathlib.FieldTheory.Finite.Basic
import Mathlib.NumberTheory.LegendreSymbol.Basic
import Mathlib.Tactic.FieldSimp
import Mathlib.Tactic.LinearCombination
import Verif.Spec.Field
import Verif.Math.PowMod

/-!
# Linking `FpElt` programs to arithmetic in `ZMod p`

`el z` is the canonical element denoting `z`. Each operation on `el`s is computed by a simp lemma, so `simp` runs the
monadic programs of the model symbolically.
-/

set_option linter.unusedSectionVars false

namespace Redox

open Spec

/-- The canonical element denoting `z`. -/
def el {p : ℕ} (z : ZMod p) : FpElt := ⟨(z.cast : ℤ), ⟨p⟩⟩

section basic
variable {p : ℕ} [NeZero p]

theorem fmod_pos (n : ℤ) : n.fmod (p : ℤ) = n % (p : ℤ) := by
  rw [Int.fmod_eq_emod_of_nonneg]; positivity

theorem cast_int_eq (n : ℤ) : ((n : ZMod p).cast : ℤ) = n % p := by
  rw [ZMod.coe_intCast]

theorem modFloor_eq (n : ℤ) : Big.modFloor n (p : ℤ) = R.ok (((n : ZMod p)).cast : ℤ) := by
  have : p ≠ 0 := NeZero.ne p
  simp [Big.modFloor, this, cast_int_eq, fmod_pos]

@[simp] theorem el_f (z : ZMod p) : (el z).f = ⟨p⟩ := rfl
@[simp] theorem el_n (z : ZMod p) : (el z).n = (z.cast : ℤ) := rfl

theorem cast_nonneg (z : ZMod p) : (0 : ℤ) ≤ (z.cast : ℤ) := by
  rw [← ZMod.natCast_val]; positivity

theorem cast_lt (z : ZMod p) : (z.cast : ℤ) < p := by
  rw [← ZMod.natCast_val]; exact_mod_cast ZMod.val_lt z

theorem cast_eq_val (z : ZMod p) : (z.cast : ℤ) = (z.val : ℤ) := (ZMod.natCast_val z).symm

@[simp] theorem cast_cast_int (z : ZMod p) : (((z.cast : ℤ)) : ZMod p) = z := ZMod.intCast_zmod_cast z

theorem canon_el (z : ZMod p) : Canon p (el z) := ⟨rfl, cast_nonneg z, cast_lt z⟩
@[simp] theorem val_el (z : ZMod p) : val p (el z) = z := by simp [val]

theorem _root_.Redox.Spec.Canon.eq_el {a : FpElt} (h : Canon p a) : a = el (val p a) := by
  obtain ⟨hf, h0, h1⟩ := h
  cases a with
  | mk n f =>
    simp only at hf h0 h1
    subst hf
    simp only [el, val, cast_int_eq, FpElt.mk.injEq, and_true]
    exact (Int.emod_eq_of_lt h0 h1).symm

theorem canon_iff {a : FpElt} : Canon p a ↔ ∃ z : ZMod p, a = el z :=
  ⟨fun h => ⟨_, h.eq_el⟩, by rintro ⟨z, rfl⟩; exact canon_el z⟩

theorem el_injective : Function.Injective (el (p := p)) := fun a b h => by
  have := congrArg (val p) h; simpa using this

@[simp] theorem el_inj {a b : ZMod p} : el a = el b ↔ a = b := el_injective.eq_iff

@[simp] theorem el_beq {a b : ZMod p} : (el a == el b) = decide (a = b) := by
  by_cases h : a = b <;> simp [h]

theorem returns_iff {r : R FpElt} {v : ZMod p} : Returns p r v ↔ r = R.ok (el v) := by
  constructor
  · rintro ⟨c, rfl, hc, rfl⟩; rw [← hc.eq_el]
  · rintro rfl; exact ⟨_, rfl, canon_el v, val_el v⟩

@[simp] theorem elt_eq (n : ℤ) : Fp.elt ⟨p⟩ n = R.ok (el (n : ZMod p)) := by
  simp [Fp.elt, modFloor_eq, el]

@[simp] theorem red_el (a : ZMod p) (n : ℤ) : (el a).red n = R.ok (el (n : ZMod p)) := by
  simp [FpElt.red, modFloor_eq, el]

@[simp] theorem zero_eq : Fp.zero ⟨p⟩ = R.ok (el (0 : ZMod p)) := by simp [Fp.zero]
@[simp] theorem one_eq : Fp.one ⟨p⟩ = R.ok (el (1 : ZMod p)) := by simp [Fp.one]
@[simp] theorem fromPrim_eq (n : ℤ) : Fp.fromPrim ⟨p⟩ n = R.ok (el (n : ZMod p)) := by simp [Fp.fromPrim]

@[simp] theorem add_el (a b : ZMod p) : (el a).add (el b) = R.ok (el (a + b)) := by
  simp [FpElt.add]
@[simp] theorem sub_el (a b : ZMod p) : (el a).sub (el b) = R.ok (el (a - b)) := by
  simp [FpElt.sub]
@[simp] theorem mul_el (a b : ZMod p) : (el a).mul (el b) = R.ok (el (a * b)) := by
  simp [FpElt.mul]
@[simp] theorem neg_el (a : ZMod p) : (el a).neg = R.ok (el (-a)) := by
  simp [FpElt.neg]
@[simp] theorem sqr_el (a : ZMod p) : (el a).powU32 2 = R.ok (el (a * a)) := by
  simp [FpElt.powU32]

@[simp] theorem isZero_el (a : ZMod p) : (el a).isZero = decide (a = 0) := by
  have : (a.cast : ℤ) = 0 ↔ a = 0 := by
    constructor
    · intro h; have := congrArg (Int.cast : ℤ → ZMod p) h; simpa using this
    · rintro rfl; exact ZMod.cast_zero
  by_cases h : a = 0
  · simp [FpElt.isZero, h, ZMod.cast_zero]
  · simp [FpElt.isZero, h, this]

theorem isZero_el_iff (a : ZMod p) : (el a).isZero = true ↔ a = 0 := by simp

theorem modpow_eq (a : ZMod p) (e : ℕ) :
    Big.modpow (a.cast : ℤ) (e : ℤ) (p : ℤ) = R.ok ((a ^ e).cast : ℤ) := by
  have hp : (p : ℤ) ≠ 0 := by exact_mod_cast NeZero.ne p
  have he : ¬ ((e : ℤ) < 0) := by omega
  have h1 : ((a.cast : ℤ) % (p : ℤ)).toNat = a.val := by
    rw [Int.emod_eq_of_lt (cast_nonneg a) (cast_lt a), cast_eq_val, Int.toNat_natCast]
  have : Int.emod (a.cast : ℤ) (p : ℤ) = (a.cast : ℤ) % (p : ℤ) := rfl
  simp only [Big.modpow, he, hp, if_false, this, h1, Int.toNat_natCast, Int.natAbs_natCast, fmod_pos, Big.powMod_eq]
  congr 1
  have h4 : a ^ e = (((a.val ^ e : ℕ) : ℤ) : ZMod p) := by push_cast; rw [ZMod.natCast_zmod_val]
  rw [h4, cast_int_eq]; push_cast; simp

@[simp] theorem powNat_el (a : ZMod p) (e : ℕ) : (el a).powNat e = R.ok (el (a ^ e)) := by
  simp [FpElt.powNat, modpow_eq]

@[simp] theorem R.fadd_ok (a b : FpElt) : R.fadd (R.ok a) (R.ok b) = a.add b := rfl
@[simp] theorem R.fsub_ok (a b : FpElt) : R.fsub (R.ok a) (R.ok b) = a.sub b := rfl
@[simp] theorem R.fmul_ok (a b : FpElt) : R.fmul (R.ok a) (R.ok b) = a.mul b := rfl
@[simp] theorem R.fdiv_ok (a b : FpElt) : R.fdiv (R.ok a) (R.ok b) = a.div b := rfl
@[simp] theorem R.fneg_ok (a : FpElt) : R.fneg (R.ok a) = a.neg := rfl
@[simp] theorem R.fsqr_ok (a : FpElt) : R.fsqr (R.ok a) = a.powU32 2 := rfl
@[simp] theorem R.finv_ok (a : FpElt) : R.finv (R.ok a) = FpElt.u32Div 1 a := rfl

@[simp] theorem cmov_el (a b : ZMod p) (c : Bool) : FpElt.cmov (el a) (el b) c = el (if c then b else a) := by
  cases c <;> rfl

/-! Single steps of long straight-line programs: name the intermediate value and go on. -/

theorem step_add {β : Type} (x y : ZMod p) {f : FpElt → R β} {r : R β} (h : ∀ t, t = x + y → f (el t) = r) :
    (R.fadd (R.ok (el x)) (R.ok (el y)) >>= f) = r := by
  rw [R.fadd_ok, add_el]; exact h _ rfl

theorem step_sub {β : Type} (x y : ZMod p) {f : FpElt → R β} {r : R β} (h : ∀ t, t = x - y → f (el t) = r) :
    (R.fsub (R.ok (el x)) (R.ok (el y)) >>= f) = r := by
  rw [R.fsub_ok, sub_el]; exact h _ rfl

theorem step_mul {β : Type} (x y : ZMod p) {f : FpElt → R β} {r : R β} (h : ∀ t, t = x * y → f (el t) = r) :
    (R.fmul (R.ok (el x)) (R.ok (el y)) >>= f) = r := by
  rw [R.fmul_ok, mul_el]; exact h _ rfl

theorem step_any {β : Type} {X : R FpElt} {v : ZMod p} {f : FpElt → R β} {r : R β} (hX : X = R.ok (el v))
    (h : ∀ t, t = v → f (el t) = r) : (X >>= f) = r := by
  subst hX; exact h _ rfl

end basic

/-- Run the additions, subtractions and multiplications at the head of a program. -/
macro "fp_steps" : tactic => `(tactic| repeat' (first
  | (refine Redox.step_mul _ _ ?_; intro _ _; beta_reduce)
  | (refine Redox.step_add _ _ ?_; intro _ _; beta_reduce)
  | (refine Redox.step_sub _ _ ?_; intro _ _; beta_reduce)))

/-- The same for steps that are nested expressions. -/
macro "fp_nested" : tactic => `(tactic| repeat' (
    refine Redox.step_any (by
      simp only [Redox.R.fadd_ok, Redox.R.fsub_ok, Redox.R.fmul_ok, Redox.R.fsqr_ok, Redox.add_el, Redox.sub_el,
        Redox.mul_el, Redox.sqr_el]
      rfl) ?_
    intro _ _
    beta_reduce))

section one
variable {p : ℕ} [Fact (1 < p)]

instance instNeZeroOfOneLt : NeZero p := ⟨by have := Fact.out (p := 1 < p); omega⟩

theorem cast_one_int : ((1 : ZMod p).cast : ℤ) = 1 := by
  have := Fact.out (p := 1 < p)
  rw [cast_eq_val, ZMod.val_one'' (by omega)]; rfl

theorem cast_eq_one_iff (a : ZMod p) : (a.cast : ℤ) = 1 ↔ a = 1 := by
  constructor
  · intro h; have := congrArg (Int.cast : ℤ → ZMod p) h; simpa using this
  · rintro rfl; exact cast_one_int

@[simp] theorem isOne_el (a : ZMod p) : (el a).isOne = decide (a = 1) := by
  by_cases h : a = 1
  · simp [FpElt.isOne, h, cast_one_int]
  · simp [FpElt.isOne, h, cast_eq_one_iff]

@[simp] theorem setOne_el (a : ZMod p) : (el a).setOne = el (1 : ZMod p) := by
  simp [FpElt.setOne, el, cast_one_int]

@[simp] theorem setZero_el (a : ZMod p) : (el a).setZero = el (0 : ZMod p) := by
  simp [FpElt.setZero, el]

/-- `^ &BigInt` reduces the exponent modulo `p - 1` first. -/
theorem powInt_el (a : ZMod p) (e : ℤ) :
    (el a).powInt e = R.ok (el (a ^ (e % ((p : ℤ) - 1)).toNat)) := by
  have hp := Fact.out (p := 1 < p)
  have h1 : (p : ℤ) - 1 ≠ 0 := by omega
  have h2 : Int.fmod e ((p : ℤ) - 1) = e % ((p : ℤ) - 1) := by
    rw [Int.fmod_eq_emod_of_nonneg]; omega
  have h3 : ¬ (e % ((p : ℤ) - 1) < 0) := by
    have := Int.emod_nonneg e h1; omega
  simp [FpElt.powInt, Big.modFloor, h1, h2, Big.toBiguint, h3]

end one

section prime
variable {p : ℕ} [hp : Fact p.Prime]

instance instOneLtOfPrime : Fact (1 < p) := ⟨hp.out.one_lt⟩

theorem invMod_el_of_two_lt [h2 : Fact (2 < p)] (a : ZMod p) : (el a).invMod = R.ok (el a⁻¹) := by
  have h2 := h2.out
  rw [FpElt.invMod, el_f, powInt_el]
  congr 2
  have h3 : (((p : ℤ) - 2) % ((p : ℤ) - 1)).toNat = p - 2 := by
    rw [Int.emod_eq_of_lt (by omega) (by omega)]; omega
  rw [h3]
  by_cases ha : a = 0
  · subst ha; rw [zero_pow (by omega), inv_zero]
  · have := ZMod.pow_card_sub_one_eq_one ha
    have h4 : a ^ (p - 2) * a = 1 := by rw [← pow_succ]; convert this using 2; omega
    exact eq_inv_of_mul_eq_one_left h4

section odd
variable [Fact (2 < p)]

@[simp] theorem invMod_el (a : ZMod p) : (el a).invMod = R.ok (el a⁻¹) := invMod_el_of_two_lt a
@[simp] theorem div_el (a b : ZMod p) : (el a).div (el b) = R.ok (el (a / b)) := by
  simp [FpElt.div, div_eq_mul_inv]
@[simp] theorem u32Div_el (a : ZMod p) : FpElt.u32Div 1 (el a) = R.ok (el a⁻¹) := by
  simp [FpElt.u32Div]

theorem p_odd : p % 2 = 1 := by
  have h := Fact.out (p := 2 < p)
  rcases hp.out.eq_two_or_odd with h' | h' <;> omega

@[simp] theorem isSquare_el (a : ZMod p) : (el a).isSquare = R.ok (decide (IsSquare a)) := by
  have h2 := Fact.out (p := 2 < p)
  have hodd := p_odd (p := p)
  rw [FpElt.isSquare, el_f, powInt_el]
  have h3 : ((((p : ℤ) - 1) / 2) % ((p : ℤ) - 1)).toNat = p / 2 := by
    rw [Int.emod_eq_of_lt (by omega) (by omega)]; omega
  simp only [h3, R.ok_bind, isOne_el, isZero_el, R.pure_eq]
  congr 1
  by_cases ha : a = 0
  · subst ha
    have : p / 2 ≠ 0 := by omega
    simp [this]
  · have := ZMod.euler_criterion p ha
    have hz : a ^ (p / 2) ≠ 0 := pow_ne_zero _ ha
    simp [this, hz]

end odd
end prime

end Redox
