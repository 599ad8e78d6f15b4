import Verif.Proofs.FpLink
import Verif.Proofs.Bytes

/-!
# C10, C11: serialization of prime-field elements
-/

namespace Redox.Props

open Spec

/-- The number a byte string denotes, most significant byte first (specification). -/
def beValue (bs : List Byte) : ℕ := bs.foldl (fun acc b => 256 * acc + b.toNat) 0

theorem foldl_be (bs : List Byte) : ∀ acc : ℕ,
    bs.foldl (fun acc b => 256 * acc + b.toNat) acc = 256 ^ bs.length * acc + Big.fromBytesBE bs := by
  induction bs with
  | nil => intro acc; simp [Big.fromBytesBE, Big.fromBytesLE]
  | cons b bs ih =>
    intro acc
    have h : Big.fromBytesBE (b :: bs) = 256 ^ bs.length * b.toNat + Big.fromBytesBE bs := by
      simp only [Big.fromBytesBE, List.reverse_cons, Big.fromBytesLE_append, Big.fromBytesLE, List.length_reverse]
      ring
    rw [List.foldl_cons, ih, h, List.length_cons]
    ring

theorem beValue_eq (bs : List Byte) : beValue bs = Big.fromBytesBE bs := by
  rw [beValue, foldl_be]; simp

/-- `to_bytes_be` of a canonical element, in closed form. -/
theorem toBytesBE_canon (p : ℕ) (hp : 1 ≤ p) (x : FpElt) (hx : Canon p x) :
    x.toBytesBE = R.ok (Big.fixedBE ((Big.bits p + 7) / 8) x.n.toNat) := by
  obtain ⟨hf, h0, h1⟩ := hx
  have hlt : x.n.toNat < 256 ^ ((Big.bits p + 7) / 8) := by
    have := Big.lt_256_pow_size p
    omega
  have hk : 1 ≤ (Big.bits p + 7) / 8 := Big.one_le_size (by omega)
  have hle := Big.toBytesBE_length_le hk hlt
  have hn : ¬ (x.n < 0) := by omega
  simp [FpElt.toBytesBE, Fp.sizeBytes, hf, Big.toBiguint, hn, Nat.not_lt.2 hle, Big.fixedBE]

/-- C10. Serialization never panics, has the fixed length `size_bytes()`, is the big-endian value of the canonical
representative, round-trips, and is injective; little endian is its reverse. -/
theorem C10_serialize (p : ℕ) (hp : 1 ≤ p) (x : FpElt) (hx : Canon p x) :
    ∃ bs, x.toBytesBE = R.ok bs ∧ bs.length = (Fp.new p).sizeBytes ∧ (beValue bs : ℤ) = x.n ∧
      x.toBytesLE = R.ok bs.reverse ∧
      (Fp.new p).fromBytesBE bs = R.ok x ∧ (Fp.new p).fromBytesLE bs.reverse = R.ok x ∧
      ∀ y, Canon p y → (y.toBytesBE = R.ok bs ∨ y.toBytesLE = R.ok bs.reverse) → y = x := by
  haveI : NeZero p := ⟨by omega⟩
  have hk : 1 ≤ (Big.bits p + 7) / 8 := Big.one_le_size (by omega)
  have hlt : ∀ y : FpElt, Canon p y → y.n.toNat < 256 ^ ((Big.bits p + 7) / 8) := by
    rintro y ⟨_, h0, h1⟩
    have := Big.lt_256_pow_size p
    omega
  have key := toBytesBE_canon p hp x hx
  have hfrom : (Fp.new p).fromBytesBE (Big.fixedBE ((Big.bits p + 7) / 8) x.n.toNat) = R.ok x := by
    rw [Fp.fromBytesBE, Big.fromBytesBE_fixedBE, Fp.new, elt_eq]
    obtain ⟨z, rfl⟩ := canon_iff.1 hx
    have : ((el z).n.toNat : ℤ) = (z.cast : ℤ) := Int.toNat_of_nonneg (cast_nonneg z)
    rw [this]; simp
  refine ⟨_, key, Big.fixedBE_length hk (hlt x hx), ?_, by simp [FpElt.toBytesLE, key], hfrom, ?_, ?_⟩
  · rw [beValue_eq, Big.fromBytesBE_fixedBE, Int.toNat_of_nonneg hx.2.1]
  · rw [Fp.fromBytesLE]
    rw [Fp.fromBytesBE, Big.fromBytesBE] at hfrom
    exact hfrom
  · intro y hy h
    have key' := toBytesBE_canon p hp y hy
    have hb : Big.fixedBE ((Big.bits p + 7) / 8) y.n.toNat = Big.fixedBE ((Big.bits p + 7) / 8) x.n.toNat := by
      rcases h with h | h
      · rw [key', R.ok.injEq] at h; exact h
      · simp only [FpElt.toBytesLE, key', R.ok_bind, R.pure_eq, R.ok.injEq, List.reverse_inj] at h; exact h
    have h2 := Big.fixedBE_inj hb
    obtain ⟨hfx, hx0, _⟩ := hx
    obtain ⟨hfy, hy0, _⟩ := hy
    cases x; cases y
    simp only [FpElt.mk.injEq] at *
    exact ⟨by omega, by rw [hfx, hfy]⟩

example : Canon 65537 ⟨258, ⟨65537⟩⟩ ∧ (FpElt.mk 258 ⟨65537⟩).toBytesBE = R.ok [0, 1, 2] ∧
    (FpElt.mk 258 ⟨65537⟩).toBytesLE = R.ok [2, 1, 0] := by
  refine ⟨⟨rfl, by decide, by decide⟩, ?_, ?_⟩ <;> decide +kernel

/-- C11. Deserialization accepts every byte string and returns its big-endian (little-endian) value reduced mod `p`;
leading zero bytes do not matter. -/
theorem C11_deserialize (p : ℕ) (hp : 1 ≤ p) (bs : List Byte) (k : ℕ) :
    (Fp.new p).fromBytesBE bs = R.ok ⟨(beValue bs : ℤ) % p, ⟨p⟩⟩ ∧
    (Fp.new p).fromBytesLE bs = R.ok ⟨(beValue bs.reverse : ℤ) % p, ⟨p⟩⟩ ∧
    (Fp.new p).fromBytesLE bs = (Fp.new p).fromBytesBE bs.reverse ∧
    (Fp.new p).fromBytesBE (List.replicate k 0 ++ bs) = (Fp.new p).fromBytesBE bs := by
  haveI : NeZero p := ⟨by omega⟩
  have h1 : ∀ bs, (Fp.new p).fromBytesBE bs = R.ok ⟨(beValue bs : ℤ) % p, ⟨p⟩⟩ := by
    intro bs; rw [beValue_eq]; simp only [Fp.fromBytesBE, Fp.new, elt_eq, el, cast_int_eq]
  have h2 : (Fp.new p).fromBytesLE bs = (Fp.new p).fromBytesBE bs.reverse := by
    simp [Fp.fromBytesLE, Fp.fromBytesBE, Big.fromBytesBE]
  refine ⟨h1 bs, by rw [h2, h1], h2, ?_⟩
  simp [Fp.fromBytesBE, Big.fromBytesBE, Big.fromBytesLE_append, Big.fromBytesLE_replicate_zero]

example : (Fp.new 7).fromBytesBE [] = R.ok ⟨0, ⟨7⟩⟩ ∧ (Fp.new 7).fromBytesBE [1, 2] = R.ok ⟨6, ⟨7⟩⟩ ∧
    (Fp.new 7).fromBytesLE [1, 2] = R.ok ⟨2, ⟨7⟩⟩ := by
  refine ⟨?_, ?_, ?_⟩ <;> decide +kernel

end Redox.Props
