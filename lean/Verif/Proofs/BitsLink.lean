import Mathlib.Data.Nat.Bitwise
import Verif.Proofs.Bytes
import Verif.Model.Scalar

/-! # The bit iterators of `Scalar` -/

namespace Redox

open Big

theorem Big.ofDigits_lt (base : ℕ) : ∀ (ds : List ℕ), (∀ d ∈ ds, d < base) →
    ofDigits base ds < base ^ ds.length := by
  intro ds
  induction ds with
  | nil => intro _; simp [ofDigits]
  | cons d ds ih =>
    intro h
    have h1 := ih (fun x hx => h x (List.mem_cons_of_mem _ hx))
    have h2 := h d List.mem_cons_self
    simp only [ofDigits, List.length_cons, pow_succ]
    calc d + base * ofDigits base ds < base + base * ofDigits base ds := by omega
      _ = base * (ofDigits base ds + 1) := by ring
      _ ≤ base * base ^ ds.length := Nat.mul_le_mul_left _ h1
      _ = _ := by ring

theorem index_toU32Digits {n i : ℕ} (h : i < bits n) :
    ∃ w, index (toU32Digits n) (i / 32) = R.ok w ∧ w.toNat = n / 2 ^ (32 * (i / 32)) % 2 ^ 32 := by
  have hn : n ≠ 0 := by rintro rfl; simp [bits] at h
  set ds := digits (2 ^ 32) (bits n) n with hds
  have hb : (2 : ℕ) ≤ 2 ^ 32 := by norm_num
  have hlt := digits_lt (2 ^ 32) hb (bits n) n
  rw [← hds] at hlt
  have hval : ofDigits (2 ^ 32) ds = n := ofDigits_digits (2 ^ 32) hb _ _ (lt_pow_bits _ n hb)
  have hlen : i / 32 < ds.length := by
    by_contra hc
    have h1 := ofDigits_lt (2 ^ 32) ds hlt
    rw [hval, ← pow_mul] at h1
    have h2 : n < 2 ^ (bits n - 1) :=
      lt_of_lt_of_le h1 (Nat.pow_le_pow_right (by norm_num) (by omega))
    exact absurd (two_pow_bits_le hn) (by omega)
  have hget := ofDigits_getElem (2 ^ 32) hb ds (i / 32) hlt
  rw [hval, ← pow_mul, List.getD_eq_getElem _ _ hlen] at hget
  refine ⟨UInt32.ofNat ds[i / 32], ?_, ?_⟩
  · simp only [index, toU32Digits, ← hds, List.getElem?_map, List.getElem?_eq_getElem hlen, Option.map_some]
  · rw [UInt32.toNat_ofNat_of_lt' (hlt _ (List.getElem_mem hlen)), hget]

theorem next_of_lt {l i : ℕ} {n : ℕ} (lr : Bool) (hl : l = bits n) (h : i < l) :
    (Iterino.mk l i (toU32Digits n) lr).next = R.ok (some (n.testBit i),
      Iterino.mk l (if lr then (if i = 0 then usizeMod - 1 else i - 1) else i + 1) (toU32Digits n) lr) := by
  obtain ⟨w, hw, hv⟩ := index_toU32Digits (n := n) (i := i) (hl ▸ h)
  simp only [Iterino.next, h, if_true, hw, R.ok_bind, R.pure_eq, hv]
  congr 3
  rw [Nat.testBit_eq_decide_div_mod_eq, Nat.shiftRight_eq_div_pow]
  have key : n / 2 ^ (32 * (i / 32)) % 2 ^ 32 / 2 ^ (i % 32) % 2 = n / 2 ^ i % 2 := by
    have hlt : i % 32 < 32 := Nat.mod_lt _ (by norm_num)
    have e1 : (2 : ℕ) ^ 32 = 2 ^ (i % 32) * (2 * 2 ^ (31 - i % 32)) := by
      rw [← pow_succ', ← pow_add]; congr 1; omega
    rw [e1, Nat.mod_mul_right_div_self, Nat.mod_mul_right_mod, Nat.div_div_eq_div_mul, ← pow_add]
    congr 3; omega
  rw [key]
  rcases Nat.mod_two_eq_zero_or_one (n / 2 ^ i) with h' | h' <;> simp [h']

/-- Bits `i-1, …, 0` of `n`. -/
def bitsDown (n : ℕ) : ℕ → List Bool
  | 0 => []
  | i + 1 => n.testBit i :: bitsDown n i

/-- Bits `i, …, i+k-1` of `n`. -/
def bitsUp (n i : ℕ) : ℕ → List Bool
  | 0 => []
  | k + 1 => n.testBit i :: bitsUp n (i + 1) k

theorem collect_lr {n : ℕ} (hn : bits n < usizeMod) : ∀ fuel i, i < bits n → i + 2 ≤ fuel →
    (Iterino.mk (bits n) i (toU32Digits n) true).collect fuel = R.ok (bitsDown n (i + 1)) := by
  intro fuel
  induction fuel with
  | zero => intro i _ h; omega
  | succ fuel ih =>
    intro i hi hf
    simp only [Iterino.collect, next_of_lt true rfl hi, R.ok_bind, if_true]
    cases i with
    | zero =>
      cases fuel with
      | zero => omega
      | succ fuel =>
        have h2 : ¬ (usizeMod - 1 < bits n) := by omega
        simp only [if_true, Iterino.collect, Iterino.next, h2, if_false, R.pure_eq, R.ok_bind, bitsDown]
    | succ j =>
      simp only [Nat.succ_ne_zero, if_false, Nat.add_sub_cancel]
      rw [ih j (by omega) (by omega)]
      rfl

theorem collect_rl {n : ℕ} : ∀ fuel i, i ≤ bits n → bits n - i + 1 ≤ fuel →
    (Iterino.mk (bits n) i (toU32Digits n) false).collect fuel = R.ok (bitsUp n i (bits n - i)) := by
  intro fuel
  induction fuel with
  | zero => intro i _ h; omega
  | succ fuel ih =>
    intro i hi hf
    by_cases h : i < bits n
    · simp only [Iterino.collect, next_of_lt false rfl h, R.ok_bind]
      have := ih (i + 1) (by omega) (by omega)
      simp only [Bool.false_eq_true, if_false, this, R.ok_bind, R.pure_eq]
      rw [show bits n - i = (bits n - (i + 1)) + 1 by omega]
      rfl
    · have : bits n - i = 0 := by omega
      simp [Iterino.collect, Iterino.next, h, this, bitsUp]

/-- `iter_lr` on a nonzero scalar yields the bits of `k`, most significant first. -/
theorem iterLR_eq (prof : Profile) {k : ℕ} (r : ℤ) (hk : k ≠ 0) (hb : bits k < usizeMod) :
    (Scalar.mk k r).iterLR prof = R.ok (bitsDown k (bits k)) := by
  have h0 : bits k ≠ 0 := fun h => hk (bits_eq_zero.1 h)
  simp only [Scalar.iterLR, Scalar.startLR, Int.natAbs_natCast, h0, if_false, R.ok_bind]
  rw [collect_lr hb _ _ (by omega) (by omega)]
  congr 2; omega

theorem iterLR_zero_debug (r : ℤ) : (Scalar.mk 0 r).iterLR .debug = R.panic .overflow := by
  simp [Scalar.iterLR, Scalar.startLR, bits]

theorem iterLR_zero_release (r : ℤ) : (Scalar.mk 0 r).iterLR .release = R.ok [] := by
  simp [Scalar.iterLR, Scalar.startLR, bits, Iterino.collect, Iterino.next]

/-- `iter_rl` yields the bits of `k`, least significant first. -/
theorem iterRL_eq (k : ℕ) (r : ℤ) : (Scalar.mk k r).iterRL = R.ok (bitsUp k 0 (bits k)) := by
  simp only [Scalar.iterRL, Scalar.startRL, Int.natAbs_natCast]
  rw [collect_rl _ _ (by omega) (by omega)]; simp

theorem nth_done {it : Iterino} (h : ¬ it.i < it.l) : ∀ n, it.nth n = R.ok none := by
  have h1 : it.next = R.ok (none, it) := by simp only [Iterino.next, h, if_false]; rfl
  intro n
  induction n with
  | zero => simp [Iterino.nth, h1]
  | succ n ih => simp [Iterino.nth, h1, ih]

theorem nth_lr {k : ℕ} (hb : bits k < usizeMod) : ∀ n i, i < bits k →
    (Iterino.mk (bits k) i (toU32Digits k) true).nth n =
      R.ok (if n < i + 1 then some (k.testBit (i - n)) else none) := by
  intro n
  induction n with
  | zero => intro i hi; simp [Iterino.nth, next_of_lt true rfl hi]
  | succ n ih =>
    intro i hi
    simp only [Iterino.nth, next_of_lt true rfl hi, R.ok_bind, if_true]
    cases i with
    | zero =>
      rw [if_pos rfl, nth_done (by simp only; omega), if_neg (by omega)]
    | succ j =>
      rw [if_neg (by omega), Nat.add_sub_cancel, ih j (by omega)]
      simp only [Nat.add_lt_add_iff_right, Nat.add_sub_add_right]

theorem nth_rl {k : ℕ} : ∀ n i, (Iterino.mk (bits k) i (toU32Digits k) false).nth n =
      R.ok (if i + n < bits k then some (k.testBit (i + n)) else none) := by
  intro n
  induction n with
  | zero =>
    intro i
    by_cases hi : i < bits k
    · simp [Iterino.nth, next_of_lt false rfl hi, hi]
    · rw [nth_done hi, if_neg (by omega)]
  | succ n ih =>
    intro i
    by_cases hi : i < bits k
    · simp only [Iterino.nth, next_of_lt false rfl hi, R.ok_bind, Bool.false_eq_true, if_false, ih,
        show i + 1 + n = i + (n + 1) by omega]
    · rw [nth_done hi, if_neg (by omega)]

/-- Reading bits most significant first. -/
def valMSB (bs : List Bool) : ℕ := bs.foldl (fun acc b => 2 * acc + b.toNat) 0

theorem foldl_bitsDown (n : ℕ) : ∀ i acc,
    (bitsDown n i).foldl (fun acc b => 2 * acc + b.toNat) acc = acc * 2 ^ i + n % 2 ^ i := by
  intro i
  induction i with
  | zero => intro acc; simp [bitsDown, Nat.mod_one]
  | succ i ih =>
    intro acc
    simp only [bitsDown, List.foldl_cons, ih]
    have : n % 2 ^ (i + 1) = 2 ^ i * (n.testBit i).toNat + n % 2 ^ i := by
      rw [Nat.toNat_testBit, pow_succ, Nat.mod_mul]; ring
    rw [this]; ring

theorem valMSB_bitsDown (n : ℕ) : valMSB (bitsDown n (bits n)) = n := by
  rw [valMSB, foldl_bitsDown, zero_mul, zero_add, Nat.mod_eq_of_lt (lt_two_pow_bits n)]

theorem bitsDown_length (n i : ℕ) : (bitsDown n i).length = i := by
  induction i with
  | zero => rfl
  | succ i ih => simp [bitsDown, ih]

theorem bitsUp_concat (n : ℕ) : ∀ k i, bitsUp n i (k + 1) = bitsUp n i k ++ [n.testBit (i + k)] := by
  intro k
  induction k with
  | zero => intro i; simp [bitsUp]
  | succ k ih =>
    intro i
    rw [bitsUp, ih (i + 1), bitsUp]
    simp; congr 1; omega

theorem bitsUp_eq_reverse (n k : ℕ) : bitsUp n 0 k = (bitsDown n k).reverse := by
  induction k with
  | zero => rfl
  | succ k ih => rw [bitsUp_concat, ih, bitsDown]; simp

theorem bitsDown_head {n : ℕ} (hn : n ≠ 0) : (bitsDown n (bits n)).head? = some true := by
  have h0 : bits n ≠ 0 := fun h => hn (bits_eq_zero.1 h)
  obtain ⟨j, hj⟩ : ∃ j, bits n = j + 1 := ⟨bits n - 1, by omega⟩
  rw [hj, bitsDown, List.head?_cons]
  congr 1
  have h1 := two_pow_bits_le hn
  have h2 := lt_two_pow_bits n
  rw [hj] at h1 h2
  rw [Nat.testBit_eq_decide_div_mod_eq]
  have : n / 2 ^ j = 1 := by
    apply Nat.div_eq_of_lt_le <;> simp at * <;> rw [pow_succ] at * <;> omega
  simp [this]

end Redox
