import Verif.Proofs.EdwLink
import Verif.Proofs.SqrtLink
import Verif.Props.FieldBytes

/-! # Closed form of the Edwards encoder and decoder -/

set_option linter.unusedSectionVars false

namespace Redox

theorem fin256_low : ∀ n : Fin 256, (UInt8.ofNat n &&& 127).toNat = n % 128 ∧
    (UInt8.ofNat n >>> 7) &&& 1 = UInt8.ofNat (n / 128) := by decide +kernel

theorem fin128_or : ∀ n : Fin 128, (UInt8.ofNat n ||| 0) = UInt8.ofNat n ∧
    (UInt8.ofNat n ||| 128).toNat = n + 128 := by decide +kernel

theorem byte_low (b : Byte) : (b &&& 127).toNat = b.toNat % 128 := by
  have := (fin256_low ⟨b.toNat, b.toNat_lt⟩).1
  simpa using this

theorem byte_high (b : Byte) : (b >>> 7) &&& 1 = UInt8.ofNat (b.toNat / 128) := by
  have := (fin256_low ⟨b.toNat, b.toNat_lt⟩).2
  simpa using this

theorem byte_or {b : Byte} (h : b.toNat < 128) : (b ||| 128).toNat = b.toNat + 128 := by
  have := (fin128_or ⟨b.toNat, h⟩).2
  simpa using this

theorem byte_or_zero (b : Byte) : (b ||| 0) = b := by simp

namespace Big

theorem fromBytesLE_snoc (xs : List Byte) (b : Byte) :
    fromBytesLE (xs ++ [b]) = fromBytesLE xs + 256 ^ xs.length * b.toNat := by
  rw [fromBytesLE_append]; simp [fromBytesLE]

end Big

theorem index_snoc {α : Type} (xs : List α) (b : α) : index (xs ++ [b]) xs.length = R.ok b := by
  simp [index]

theorem set_snoc {α : Type} (xs : List α) (b c : α) : (xs ++ [b]).set xs.length c = xs ++ [c] := by
  simp

namespace ELink

open Spec Edwards Edw

section
variable {p : ℕ} [Fact p.Prime] {e : Curve}

/-- Number of bytes of an encoding. -/
def encSize (p : ℕ) : ℕ := (Big.bits p + 8) / 8

theorem one_le_encSize : 1 ≤ encSize p := by unfold encSize; omega

/-- The parity of the canonical representative. -/
def par (v : ZMod p) : ℕ := v.val % 2

theorem signBit_el (v : ZMod p) : signBit (el v).sgn0 = par v := by
  rw [sgn0_el, par]
  rcases Nat.mod_two_eq_zero_or_one v.val with h | h <;> simp [h, signBit]

theorem par_lt (v : ZMod p) : par v < 2 := Nat.mod_lt _ (by norm_num)

theorem decode_wrongSize (he : EParams p e) (buf : List Byte) (h : buf.length ≠ encSize p) :
    e.decode buf = R.ok (.error .wrongSize) := by
  have : buf.length ≠ (Big.bits e.f.p + 1 + 7) / 8 := by rw [he.field]; exact h
  simp [Curve.decode, this]

/-- What happens after the length check. -/
theorem decode_body (he : EParams p e) (hs : SqrtOK p) (xs : List Byte) (b : Byte) (hx : xs.length + 1 = encSize p) :
    e.decode (xs ++ [b]) =
      if p ≤ Big.fromBytesLE xs + 256 ^ xs.length * (b.toNat % 128) then R.ok (.error .invalidYChosen)
      else
        let y : ZMod p := ((Big.fromBytesLE xs + 256 ^ xs.length * (b.toNat % 128) : ℕ) : ZMod p)
        let s : ZMod p := sqrtZ ((y ^ 2 - 1) / (val p e.d * y ^ 2 - val p e.a))
        if s = 0 ∧ b.toNat / 128 = 1 then R.ok (.error .sqrtFailed)
        else (do return .ok (← e.newPoint (el (if par s ≠ b.toNat / 128 then -s else s)) (el y))) := by
  haveI : Fact (2 < p) := ⟨two_lt_of he⟩
  have hp : e.f.p = p := by rw [he.field]
  have hsize : (xs ++ [b]).length = (Big.bits p + 1 + 7) / 8 := by
    rw [List.length_append, List.length_singleton, hx]; rfl
  have hlast : (Big.bits p + 1 + 7) / 8 - 1 = xs.length := by
    have : (Big.bits p + 1 + 7) / 8 = encSize p := rfl
    omega
  have hb2 : b.toNat / 128 < 2 := by have := b.toNat_lt; omega
  have hx0 : UInt8.ofNat (b.toNat / 128) = 1 ↔ b.toNat / 128 = 1 := by
    rcases (by omega : b.toNat / 128 = 0 ∨ b.toNat / 128 = 1) with h | h <;> simp [h]
  have htag : ∀ v : ZMod p, UInt8.ofNat (par v) = UInt8.ofNat (b.toNat / 128) ↔ par v = b.toNat / 128 := by
    intro v
    have := par_lt v
    rcases (by omega : b.toNat / 128 = 0 ∨ b.toNat / 128 = 1) with h | h <;>
      rcases (by omega : par v = 0 ∨ par v = 1) with h' | h' <;> simp [h, h']
  unfold Curve.decode
  simp only [hp, hsize, ne_eq, not_true_eq_false, if_false, hlast, index_snoc, R.ok_bind, set_snoc, byte_high,
    Big.fromBytesLE_snoc, byte_low, ge_iff_le]
  by_cases h : p ≤ Big.fromBytesLE xs + 256 ^ xs.length * (b.toNat % 128)
  · rw [if_pos h, if_pos h]; rfl
  · rw [if_neg h, if_neg h]
    rw [he.field, elt_eq, R.ok_bind, Int.cast_natCast, R.fmul_ok, mul_el, R.ok_bind, one_eq, R.fneg_ok, neg_el,
      R.ok_bind, R.fadd_ok, add_el, R.ok_bind, ea he, ed he, R.fmul_ok, mul_el, R.fsub_ok, sub_el, R.ok_bind,
      R.fdiv_ok, div_el, R.ok_bind, sqrt_el hs, R.ok_bind, zero_eq, R.ok_bind, signBit_el]
    simp only [el_inj, hx0, htag, val_el, neg_el]
    have harg : ∀ y : ZMod p, (y * y + -1) / (val p e.d * (y * y) - val p e.a) =
        (y ^ 2 - 1) / (val p e.d * y ^ 2 - val p e.a) := by intro y; rw [pow_two, ← sub_eq_add_neg]
    rw [harg]
    split_ifs <;> rfl

/-- Little-endian digits of `v` in `encSize p` bytes: all but the last, and the last. -/
theorem encode_pt (he : EParams p e) (x y t z : ZMod p) (c : Bool) :
    ∃ xs b, (pt e x y t z).encode c = R.ok (xs ++ [b]) ∧ xs.length + 1 = encSize p ∧
      Big.fromBytesLE xs + 256 ^ xs.length * (b.toNat % 128) = (y * z⁻¹).val ∧ b.toNat / 128 = par (x * z⁻¹) := by
  have hprime := (Fact.out : p.Prime)
  set v := y * z⁻¹ with hv
  set u := x * z⁻¹ with hu
  have hp : e.f.p = p := by rw [he.field]
  have hLE : (el v).toBytesLE = R.ok (Big.fixedBE ((Big.bits p + 7) / 8) v.val).reverse := by
    rw [FpElt.toBytesLE, Props.toBytesBE_canon p hprime.one_le _ (canon_el v), R.ok_bind]
    simp only [el_n, cast_eq_val, Int.toNat_natCast]
    rfl
  set k := (Big.bits p + 7) / 8 with hk
  have hk1 : 1 ≤ k := Big.one_le_size hprime.ne_zero
  have hvk : v.val < 256 ^ k := lt_trans (ZMod.val_lt v) (Big.lt_256_pow_size p)
  set w := (Big.fixedBE k v.val).reverse with hw
  have hwl : w.length = k := by rw [hw, List.length_reverse, Big.fixedBE_length hk1 hvk]
  have hwv : Big.fromBytesLE w = v.val := by
    have := Big.fromBytesBE_fixedBE k v.val
    rwa [Big.fromBytesBE] at this
  have hks : k ≤ encSize p := by unfold encSize; omega
  set w' := (w ++ List.replicate (encSize p - w.length) 0).take (encSize p) with hw'
  have hw'e : w' = w ++ List.replicate (encSize p - w.length) 0 := by
    rw [hw', List.take_of_length_le]; simp; omega
  have hw'l : w'.length = encSize p := by rw [hw'e]; simp; omega
  have hw'v : Big.fromBytesLE w' = v.val := by
    rw [hw'e, Big.fromBytesLE_append, Big.fromBytesLE_replicate_zero, hwv]; simp
  have h1 := one_le_encSize (p := p)
  obtain ⟨xs, b, hsplit⟩ : ∃ xs b, w' = xs ++ [b] := by
    rcases List.eq_nil_or_concat w' with h | ⟨xs, b, h⟩
    · rw [h] at hw'l; simp at hw'l; omega
    · exact ⟨xs, b, by simpa using h⟩
  have hxl : xs.length + 1 = encSize p := by rw [← hw'l, hsplit]; simp
  have hval : Big.fromBytesLE xs + 256 ^ xs.length * b.toNat = v.val := by
    rw [← hw'v, hsplit, Big.fromBytesLE_snoc]
  have hb : b.toNat < 128 := by
    by_contra hb
    have h2 : 256 ^ xs.length * 128 ≤ v.val := by
      rw [← hval]
      have : 256 ^ xs.length * 128 ≤ 256 ^ xs.length * b.toNat := Nat.mul_le_mul_left _ (by omega)
      omega
    have h3 : 2 ^ Big.bits p ≤ 256 ^ xs.length * 128 := by
      rw [show (256 : ℕ) = 2 ^ 8 by norm_num, ← pow_mul, show (128 : ℕ) = 2 ^ 7 by norm_num, ← pow_add]
      apply Nat.pow_le_pow_right (by norm_num)
      unfold encSize at hxl
      omega
    have := ZMod.val_lt v
    have := Big.lt_two_pow_bits p
    omega
  refine ⟨xs, b ||| UInt8.ofNat (par u <<< 7), ?_, hxl, ?_, ?_⟩
  · rw [Point.encode, normalize_pt he, R.ok_bind, ← hv, ← hu]
    have hx' : (pt e u v (u * v) 1).c.x = el u := rfl
    have hy' : (pt e u v (u * v) 1).c.y = el v := rfl
    simp only [hx', hy', hLE, R.ok_bind]
    have hsz : (Big.bits (pt e x y t z).e.f.p + 1 + 7) / 8 = encSize p := by
      change (Big.bits e.f.p + 1 + 7) / 8 = _
      rw [hp]; rfl
    simp only [hsz, ← hw']
    rw [hsplit, show (xs ++ [b]).length - 1 = xs.length by simp, index_snoc, R.ok_bind, set_snoc, signBit_el]
    rfl
  · rcases (by have := par_lt u; omega : par u = 0 ∨ par u = 1) with h | h
    · rw [h]; simp only [Nat.zero_shiftLeft]
      have : (b ||| UInt8.ofNat 0) = b := byte_or_zero b
      rw [this, Nat.mod_eq_of_lt hb, hval]
    · rw [h]
      have : (b ||| UInt8.ofNat (1 <<< 7)) = b ||| 128 := rfl
      rw [this, byte_or hb, Nat.add_mod_right, Nat.mod_eq_of_lt hb, hval]
  · rcases (by have := par_lt u; omega : par u = 0 ∨ par u = 1) with h | h
    · rw [h]; simp only [Nat.zero_shiftLeft]
      have : (b ||| UInt8.ofNat 0) = b := byte_or_zero b
      rw [this, Nat.div_eq_of_lt hb]
    · rw [h]
      have : (b ||| UInt8.ofNat (1 <<< 7)) = b ||| 128 := rfl
      rw [this, byte_or hb]
      omega

end
end ELink
end Redox
