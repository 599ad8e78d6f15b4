import Verif.Props.FieldArith
import Verif.Props.ScalarProps

/-!
# C88: division when the modulus or the order is not prime
-/

namespace Redox.Props

open Spec

namespace Compos

theorem inv_any {n : ℕ} (hn : 2 ≤ n) (b : ZMod n) : haveI : NeZero n := ⟨by omega⟩
    FpElt.u32Div 1 (el b) = R.ok (el (b ^ (n - 2))) := by
  have : NeZero n := ⟨by omega⟩
  haveI : Fact (1 < n) := ⟨by omega⟩
  simp only [FpElt.u32Div, beq_self_eq_true, doIfEq_true, FpElt.invMod, el_f, powInt_el]
  congr 3
  rw [Int.emod_eq_of_lt (by omega) (by omega)]
  omega

theorem pow_pred {n : ℕ} (hn : 2 ≤ n) (b : ZMod n) : b ^ (n - 2) * b = b ^ (n - 1) := by
  rw [← pow_succ]; congr 1; omega

theorem mul_inv_any {n : ℕ} (hn : 2 ≤ n) (b : ZMod n) : haveI : NeZero n := ⟨by omega⟩
    (do (← FpElt.u32Div 1 (el b)).mul (el b)) = R.ok (el (b ^ (n - 1))) := by
  have : NeZero n := ⟨by omega⟩
  rw [inv_any hn, R.ok_bind, mul_el, pow_pred hn]

/-- All nonzero classes have `b ^ (n - 1) = 1` exactly if `n` is prime. -/
theorem fermat_iff {n : ℕ} (hn : 2 ≤ n) : (∀ b : ZMod n, b ≠ 0 → b ^ (n - 1) = 1) ↔ n.Prime := by
  have : NeZero n := ⟨by omega⟩
  constructor
  · intro h
    by_contra hp
    obtain ⟨d, hd, h1, h2⟩ := Nat.exists_dvd_of_not_prime2 hn hp
    have hd0 : (d : ZMod n) ≠ 0 := by
      rw [Ne, ZMod.natCast_eq_zero_iff]
      exact fun h => absurd (Nat.le_of_dvd (by omega) h) (by omega)
    have h3 := h _ hd0
    have hu : IsUnit (d : ZMod n) := IsUnit.of_pow_eq_one h3 (by omega)
    rw [ZMod.isUnit_iff_coprime] at hu
    have := Nat.eq_one_of_dvd_coprimes hu dvd_rfl hd
    omega
  · intro hp b hb
    haveI := Fact.mk hp
    exact ZMod.pow_card_sub_one_eq_one hb

theorem scalar_inv_any {r : ℕ} (hr : 2 ≤ r) (b : ZMod r) :
    haveI : NeZero r := ⟨by omega⟩
    (do (← Scalar.u32Div 1 ⟨(b.cast : ℤ), r⟩).mul ⟨(b.cast : ℤ), r⟩) = R.ok ⟨((b ^ (r - 1)).cast : ℤ), r⟩ := by
  haveI : NeZero r := ⟨by omega⟩
  have hm := modpow_eq (p := r) b (r - 2)
  rw [Nat.cast_sub hr] at hm
  simp only [Nat.cast_ofNat] at hm
  simp only [Scalar.u32Div, beq_self_eq_true, doIfEq_true, Scalar.invMod, hm, R.ok_bind, scalar_red_eq r (by omega : 1 ≤ r), Scalar.mul]
  rw [← cast_int_eq, ← cast_int_eq]
  congr 2
  rw [Int.cast_mul, cast_cast_int, cast_cast_int, cast_cast_int, pow_pred hr]

end Compos

open Compos

/-- C88, one element, any modulus: `1u32 / b` never panics, and it is the inverse of `b` exactly if `b ^ (n - 1) = 1` modulo `n`. -/
theorem C88_inverse (n : ℕ) (hn : 2 ≤ n) (b : FpElt) (hb : Canon n b) :
    ∃ i, FpElt.u32Div 1 b = R.ok i ∧ Canon n i ∧ (i.mul b = (Fp.new n).one ↔ val n b ^ (n - 1) = 1) := by
  have : NeZero n := ⟨by omega⟩
  obtain ⟨b, rfl⟩ := canon_iff.1 hb
  refine ⟨_, inv_any hn b, canon_el _, ?_⟩
  rw [mul_el, Fp.new, one_eq, R.ok.injEq, el_inj, pow_pred hn, val_el]

/-- C88, all elements: `(1u32 / b) * b == one` for every nonzero element `b` exactly if the modulus is prime. -/
theorem C88_field_iff (n : ℕ) (hn : 2 ≤ n) :
    (∀ b, Canon n b → b.isZero = false → (do (← FpElt.u32Div 1 b).mul b) = (Fp.new n).one) ↔ n.Prime := by
  have : NeZero n := ⟨by omega⟩
  rw [← fermat_iff hn]
  constructor
  · intro h b hb
    have := h (el b) (canon_el b) (by simpa using hb)
    rwa [mul_inv_any hn, Fp.new, one_eq, R.ok.injEq, el_inj] at this
  · intro h b hb hb0
    obtain ⟨b, rfl⟩ := canon_iff.1 hb
    rw [mul_inv_any hn, h b (by simpa using hb0), Fp.new, one_eq]

/-- C88, how often: if `1u32 / c` is wrong for one `c` that has an inverse, then it is right for at most half of the elements that have one. -/
theorem C88_half (n : ℕ) (hn : 2 ≤ n) (c : ℤ) (hc : IsCoprime c (n : ℤ))
    (hbad : (do let c ← (Fp.new n).elt c; (← FpElt.u32Div 1 c).mul c) ≠ (Fp.new n).one) :
    2 * ((Finset.range n).filter fun b : ℕ =>
      (do let b ← (Fp.new n).elt b; (← FpElt.u32Div 1 b).mul b) = (Fp.new n).one).card ≤ Nat.totient n := by
  have : NeZero n := ⟨by omega⟩
  have key : ∀ b : ℤ, (do let b ← (Fp.new n).elt b; (← FpElt.u32Div 1 b).mul b) = (Fp.new n).one ↔ (b : ZMod n) ^ (n - 1) = 1 := by
    intro b
    rw [Fp.new, elt_eq, R.ok_bind, mul_inv_any hn, one_eq, R.ok.injEq, el_inj]
  simp only [key, Int.cast_natCast]
  let H : Subgroup (ZMod n)ˣ := (powMonoidHom (n - 1)).ker
  have hH : ∀ u, u ∈ H ↔ u ^ (n - 1) = 1 := fun u => by simp [H, MonoidHom.mem_ker]
  have hcard : ((Finset.range n).filter fun b : ℕ => (b : ZMod n) ^ (n - 1) = 1).card = Nat.card H := by
    have h1 : Nat.card H = ((Finset.univ : Finset (ZMod n)ˣ).filter fun u => u ^ (n - 1) = 1).card := by
      rw [← Fintype.card_subtype, ← Nat.card_eq_fintype_card]
      exact Nat.card_congr (Equiv.subtypeEquivRight hH)
    rw [h1]
    symm
    refine Finset.card_bij (fun u _ => (u : ZMod n).val) ?_ ?_ ?_
    · intro u hu
      simp only [Finset.mem_filter, Finset.mem_univ, true_and] at hu
      simp only [Finset.mem_filter, Finset.mem_range, ZMod.natCast_zmod_val]
      exact ⟨ZMod.val_lt _, by rw [← Units.val_pow_eq_pow_val, hu, Units.val_one]⟩
    · intro u _ v _ h
      exact Units.ext (ZMod.val_injective n h)
    · intro b hb
      simp only [Finset.mem_filter, Finset.mem_range] at hb
      obtain ⟨u, hu⟩ := IsUnit.of_pow_eq_one hb.2 (by omega)
      refine ⟨u, ?_, by rw [hu, ZMod.val_natCast_of_lt hb.1]⟩
      simp only [Finset.mem_filter, Finset.mem_univ, true_and]
      refine Units.ext ?_
      rw [Units.val_pow_eq_pow_val, hu, hb.2, Units.val_one]
  have hne : H ≠ ⊤ := by
    intro h
    have hu : IsUnit (c : ZMod n) := (ZMod.coe_int_isUnit_iff_isCoprime c n).2 hc.symm
    obtain ⟨u, hu⟩ := hu
    have hm : u ∈ H := by rw [h]; trivial
    rw [hH] at hm
    apply hbad
    rw [key, ← hu, ← Units.val_pow_eq_pow_val, hm, Units.val_one]
  have hidx : 2 ≤ H.index := by
    have h0 : H.index ≠ 0 := H.index_ne_zero_of_finite
    have h1 : H.index ≠ 1 := fun h => hne (Subgroup.index_eq_one.1 h)
    omega
  have := H.card_mul_index
  rw [Nat.card_eq_fintype_card (α := (ZMod n)ˣ), ZMod.card_units_eq_totient] at this
  rw [hcard, ← this, mul_comm]
  exact Nat.mul_le_mul_left _ hidx

/-- C88, scalars: `(1u32 / k) * k == 1` for every nonzero scalar `k` exactly if the order is prime. -/
theorem C88_scalar_iff (r : ℕ) (hr : 2 ≤ r) :
    (∀ k, CanonScalar r k → k.k ≠ 0 → (do (← Scalar.u32Div 1 k).mul k) = Scalar.new 1 r) ↔ r.Prime := by
  haveI : NeZero r := ⟨by omega⟩
  have hone : Scalar.new 1 r = R.ok ⟨((1 : ZMod r).cast : ℤ), r⟩ := by
    rw [scalar_new_eq r (by omega), ← cast_int_eq, Int.cast_one]
  have hinj : ∀ a b : ZMod r, (R.ok (Scalar.mk (a.cast : ℤ) r) = R.ok (Scalar.mk (b.cast : ℤ) r)) ↔ a = b := by
    intro a b
    rw [R.ok.injEq, Scalar.mk.injEq]
    refine ⟨fun h => ?_, fun h => ⟨by rw [h], rfl⟩⟩
    have := congrArg (Int.cast : ℤ → ZMod r) h.1
    rwa [cast_cast_int, cast_cast_int] at this
  rw [← fermat_iff hr]
  constructor
  · intro h b hb
    have := h ⟨(b.cast : ℤ), r⟩ ⟨rfl, cast_nonneg _, cast_lt _⟩ (fun h0 => hb (by
      have := congrArg (Int.cast : ℤ → ZMod r) h0
      rwa [cast_cast_int, Int.cast_zero] at this))
    rwa [scalar_inv_any hr, hone, hinj] at this
  · rintro h ⟨k, s⟩ ⟨h1, h2, h3⟩ hk
    simp only at h1 h2 h3 hk
    subst h1
    have hcast : ((k : ZMod r).cast : ℤ) = k := by rw [cast_int_eq, Int.emod_eq_of_lt h2 h3]
    have hk0 : (k : ZMod r) ≠ 0 := fun h0 => hk (by rw [← hcast, h0]; simp)
    have := scalar_inv_any hr (k : ZMod r)
    rw [hcast] at this
    rw [this, h _ hk0, hone]

/-- C88, the modulus one and the order one: division panics. -/
theorem C88_one (b : FpElt) (hb : b.f = Fp.new 1) (k : Scalar) (hk : k.r = 1) :
    FpElt.u32Div 1 b = R.panic .divByZero ∧ Scalar.u32Div 1 k = R.panic .negExponent := by
  obtain ⟨n, f⟩ := b
  obtain ⟨k, r⟩ := k
  simp only at hb hk
  subst hb hk
  constructor
  · simp [FpElt.u32Div, FpElt.invMod, FpElt.powInt, Fp.new, Big.modFloor]
  · simp [Scalar.u32Div, Scalar.invMod, Big.modpow]

/-- 15 is not prime: `2 * (1/2)` is 4, although 2 has the inverse 8, so at most four of the eight invertible elements have a right inverse. For
the Carmichael number 561 all 320 of them do. -/
example : (do let c ← (Fp.new 15).elt 2; (← FpElt.u32Div 1 c).mul c) = (Fp.new 15).elt 4 ∧ IsCoprime (2 : ℤ) ((15 : ℕ) : ℤ) ∧
    (∀ b ∈ Finset.range 561, Nat.Coprime b 561 → (do let b ← (Fp.new 561).elt b; (← FpElt.u32Div 1 b).mul b) = (Fp.new 561).one) ∧
    ¬ Nat.Prime 561 := by
  refine ⟨by decide +kernel, ⟨-7, 1, by norm_num⟩, by decide +kernel, by norm_num⟩

end Redox.Props
