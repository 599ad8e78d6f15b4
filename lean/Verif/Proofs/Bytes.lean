import Mathlib.Data.List.Basic
import Mathlib.Data.Nat.Log
import Mathlib.Tactic.Ring
import Mathlib.Tactic.Linarith
import Mathlib.Tactic.Positivity
import Verif.Model.BigInt

/-! # Byte strings and integers -/

namespace Redox.Big

theorem lt_two_pow_bits (n : ℕ) : n < 2 ^ bits n := by
  unfold bits
  split
  · next h => subst h; simp
  · exact Nat.lt_log2_self

theorem two_pow_bits_le {n : ℕ} (h : n ≠ 0) : 2 ^ (bits n - 1) ≤ n := by
  rw [bits, if_neg h, Nat.add_sub_cancel]; exact Nat.log2_self_le h

theorem bits_le_iff (n k : ℕ) : bits n ≤ k ↔ n < 2 ^ k := by
  unfold bits
  split
  · next h => subst h; simp
  · next h => rw [Nat.succ_le_iff, Nat.log2_lt h]

theorem bits_mono {a b : ℕ} (h : a ≤ b) : bits a ≤ bits b :=
  (bits_le_iff _ _).2 (lt_of_le_of_lt h (lt_two_pow_bits b))

theorem bits_eq_zero {n : ℕ} : bits n = 0 ↔ n = 0 := by
  have := bits_le_iff n 0
  simp at this; exact this

/-- Value of a little-endian digit list. -/
def ofDigits (base : ℕ) : List ℕ → ℕ
  | [] => 0
  | d :: ds => d + base * ofDigits base ds

theorem ofDigits_digits (base : ℕ) (_hb : 2 ≤ base) : ∀ fuel n, n < base ^ fuel →
    ofDigits base (digits base fuel n) = n := by
  intro fuel
  induction fuel with
  | zero => intro n h; have : n = 0 := by simpa using h
            subst this; simp [digits, ofDigits]
  | succ k ih =>
    intro n h
    unfold digits
    split
    · next h' => subst h'; rfl
    · simp only [ofDigits]
      rw [ih _ (Nat.div_lt_of_lt_mul (by rw [pow_succ] at h; linarith)), Nat.mod_add_div]

theorem digits_lt (base : ℕ) (hb : 2 ≤ base) : ∀ fuel n, ∀ d ∈ digits base fuel n, d < base := by
  intro fuel
  induction fuel with
  | zero => intro n d h; simp [digits] at h
  | succ k ih =>
    intro n d h
    unfold digits at h
    split at h
    · simp at h
    · simp only [List.mem_cons] at h
      rcases h with h | h
      · rw [h]; exact Nat.mod_lt _ (by omega)
      · exact ih _ _ h

theorem digits_length_le (base : ℕ) (_hb : 2 ≤ base) : ∀ k fuel n, n < base ^ k →
    (digits base fuel n).length ≤ k := by
  intro k
  induction k with
  | zero =>
    intro fuel n h
    have : n = 0 := by simpa using h
    subst this
    cases fuel <;> simp [digits]
  | succ k ih =>
    intro fuel n h
    cases fuel with
    | zero => simp [digits]
    | succ fuel =>
      unfold digits
      split
      · simp
      · simp only [List.length_cons, Nat.add_le_add_iff_right]
        exact ih _ _ (Nat.div_lt_of_lt_mul (by rw [pow_succ] at h; linarith))

theorem lt_pow_bits (base n : ℕ) (hb : 2 ≤ base) : n < base ^ bits n :=
  lt_of_lt_of_le (lt_two_pow_bits n) (Nat.pow_le_pow_left hb _)

theorem fromBytesLE_map (ds : List ℕ) (h : ∀ d ∈ ds, d < 256) :
    fromBytesLE (ds.map UInt8.ofNat) = ofDigits 256 ds := by
  induction ds with
  | nil => rfl
  | cons d ds ih =>
    simp only [List.map_cons, fromBytesLE, ofDigits]
    rw [ih (fun x hx => h x (List.mem_cons_of_mem _ hx))]
    have := h d List.mem_cons_self
    simp [Nat.mod_eq_of_lt this]

theorem fromBytesLE_toBytesLE (n : ℕ) : fromBytesLE (toBytesLE n) = n := by
  unfold toBytesLE
  split
  · next h => subst h; rfl
  · rw [fromBytesLE_map _ (digits_lt 256 (by norm_num) _ _), ofDigits_digits 256 (by norm_num) _ _
      (lt_pow_bits 256 n (by norm_num))]

theorem toBytesLE_length_le {n k : ℕ} (hk : 1 ≤ k) (h : n < 256 ^ k) : (toBytesLE n).length ≤ k := by
  unfold toBytesLE
  split
  · simpa using hk
  · rw [List.length_map]; exact digits_length_le 256 (by norm_num) _ _ _ h

theorem toBytesBE_length_le {n k : ℕ} (hk : 1 ≤ k) (h : n < 256 ^ k) : (toBytesBE n).length ≤ k := by
  rw [toBytesBE, List.length_reverse]; exact toBytesLE_length_le hk h

theorem fromBytesBE_toBytesBE (n : ℕ) : fromBytesBE (toBytesBE n) = n := by
  simp [fromBytesBE, toBytesBE, fromBytesLE_toBytesLE]

theorem fromBytesLE_append (a b : List Byte) :
    fromBytesLE (a ++ b) = fromBytesLE a + 256 ^ a.length * fromBytesLE b := by
  induction a with
  | nil => simp [fromBytesLE]
  | cons x a ih => simp only [List.cons_append, fromBytesLE, ih, List.length_cons, pow_succ]; ring

theorem fromBytesLE_replicate_zero (k : ℕ) : fromBytesLE (List.replicate k 0) = 0 := by
  induction k with
  | zero => rfl
  | succ k ih => simp [List.replicate_succ, fromBytesLE, ih]

theorem fromBytesLE_lt (a : List Byte) : fromBytesLE a < 256 ^ a.length := by
  induction a with
  | nil => simp [fromBytesLE]
  | cons x a ih =>
    simp only [fromBytesLE, List.length_cons, pow_succ]
    have := x.toNat_lt
    norm_num at this
    omega

theorem fromBytesBE_lt (a : List Byte) : fromBytesBE a < 256 ^ a.length := by
  have := fromBytesLE_lt a.reverse
  rwa [List.length_reverse] at this

theorem fromBytesLE_inj : ∀ {a b : List Byte}, a.length = b.length → fromBytesLE a = fromBytesLE b → a = b := by
  intro a
  induction a with
  | nil => intro b h _; exact (List.length_eq_zero_iff.1 h.symm).symm
  | cons x a ih =>
    intro b h hv
    cases b with
    | nil => simp at h
    | cons y b =>
      simp only [fromBytesLE] at hv
      have hx := x.toNat_lt
      have hy := y.toNat_lt
      norm_num at hx hy
      have h1 : x.toNat = y.toNat := by omega
      have h2 : fromBytesLE a = fromBytesLE b := by omega
      rw [ih (by simpa using h) h2, UInt8.toNat_inj.1 h1]

theorem fromBytesBE_inj {a b : List Byte} (h : a.length = b.length) (hv : fromBytesBE a = fromBytesBE b) : a = b := by
  have := fromBytesLE_inj (a := a.reverse) (b := b.reverse) (by simpa using h) hv
  simpa using this

/-- `n` in exactly `k` bytes, big-endian. -/
def fixedBE (k n : ℕ) : List Byte := List.replicate (k - (toBytesBE n).length) 0 ++ toBytesBE n

theorem fixedBE_length {k n : ℕ} (hk : 1 ≤ k) (h : n < 256 ^ k) : (fixedBE k n).length = k := by
  have := toBytesBE_length_le hk h
  simp [fixedBE]; omega

theorem fromBytesBE_fixedBE (k n : ℕ) : fromBytesBE (fixedBE k n) = n := by
  simp only [fixedBE, fromBytesBE, List.reverse_append, List.reverse_replicate, fromBytesLE_append,
    fromBytesLE_replicate_zero, mul_zero, add_zero]
  exact fromBytesBE_toBytesBE n

theorem fixedBE_fromBytesBE {bs : List Byte} (h : 1 ≤ bs.length) : fixedBE bs.length (fromBytesBE bs) = bs :=
  fromBytesBE_inj (fixedBE_length h (fromBytesBE_lt bs)) (fromBytesBE_fixedBE _ _)

theorem fixedBE_inj {k m n : ℕ} (h : fixedBE k m = fixedBE k n) : m = n := by
  have := congrArg fromBytesBE h; simpa [fromBytesBE_fixedBE] using this

theorem lt_256_pow_size (n : ℕ) : n < 256 ^ ((bits n + 7) / 8) := by
  have h1 : 2 ^ bits n ≤ 256 ^ ((bits n + 7) / 8) := by
    rw [show (256 : ℕ) = 2 ^ 8 by norm_num, ← pow_mul]; exact Nat.pow_le_pow_right (by norm_num) (by omega)
  exact lt_of_lt_of_le (lt_two_pow_bits n) h1

theorem one_le_size {n : ℕ} (h : n ≠ 0) : 1 ≤ (bits n + 7) / 8 := by
  have : bits n ≠ 0 := fun h' => h (bits_eq_zero.1 h')
  omega

/-! `to_u32_digits` and testing a bit -/

theorem ofDigits_getElem (base : ℕ) (hb : 2 ≤ base) : ∀ (ds : List ℕ) (i : ℕ), (∀ d ∈ ds, d < base) →
    ds.getD i 0 = ofDigits base ds / base ^ i % base := by
  intro ds
  induction ds with
  | nil => intro i _; simp [ofDigits]
  | cons d ds ih =>
    intro i h
    cases i with
    | zero =>
      simp only [List.getD_cons_zero, ofDigits, pow_zero, Nat.div_one, Nat.add_mul_mod_self_left]
      exact (Nat.mod_eq_of_lt (h d List.mem_cons_self)).symm
    | succ i =>
      simp only [List.getD_cons_succ, ofDigits]
      rw [ih i (fun x hx => h x (List.mem_cons_of_mem _ hx)), pow_succ', ← Nat.div_div_eq_div_mul,
        Nat.add_mul_div_left _ _ (by omega : 0 < base), Nat.div_eq_of_lt (h d List.mem_cons_self), zero_add]

end Redox.Big
