import Mathlib.Data.Nat.Size
import Mathlib.Data.Nat.Bits
import Verif.Model.Trace
import Verif.Proofs.BitsLink
import Verif.Props.InstanceProps

/-!
# C89: the group operations performed by a multiplication
-/

namespace Redox.Props

open Spec

/-- What is expected: for each binary digit a doubling, and for each digit one an addition after it. -/
def ladder : List Bool → List GroupOp
  | [] => []
  | b :: bs => .dbl :: ((if b then [.add] else []) ++ ladder bs)

/-- The binary digits of `n`, most significant first. -/
def binary (n : ℕ) : List Bool := n.bits.reverse

theorem bits_eq_size (n : ℕ) : Big.bits n = n.size := by
  rw [Big.bits]
  split
  · next h => simp [h]
  · next h =>
    refine le_antisymm ?_ ?_
    · rw [Nat.succ_le_iff, Nat.lt_size]
      exact Nat.log2_self_le h
    · rw [Nat.size_le]
      exact Nat.lt_log2_self

theorem bitsDown_binary (n : ℕ) : bitsDown n (Big.bits n) = binary n := by
  have h : bitsUp n 0 (Big.bits n) = n.bits := by
    have hl : ∀ k i, (bitsUp n i k).length = k := by
      intro k
      induction k with
      | zero => intro i; rfl
      | succ k ih => intro i; simp [bitsUp, ih]
    have hg : ∀ k i j, j < k → (bitsUp n i k)[j]? = some (n.testBit (i + j)) := by
      intro k
      induction k with
      | zero => intro i j h; omega
      | succ k ih =>
        intro i j h
        cases j with
        | zero => simp [bitsUp]
        | succ j =>
          simp only [bitsUp, List.getElem?_cons_succ]
          rw [ih (i + 1) j (by omega)]
          congr 2; omega
    have hlen : n.bits.length = Big.bits n := by rw [bits_eq_size, Nat.size_eq_bits_len]
    refine List.ext_getElem? fun j => ?_
    by_cases hj : j < Big.bits n
    · rw [hg _ _ _ hj, zero_add, Nat.testBit_eq_inth, List.getI_eq_getElem _ (by omega), List.getElem?_eq_getElem (by omega)]
    · rw [List.getElem?_eq_none (by rw [hl]; omega), List.getElem?_eq_none (by omega)]
  rw [binary, ← h, bitsUp_eq_reverse, List.reverse_reverse]

theorem iterLR_binary {prof : Profile} {k : Scalar} {bs : List Bool} (h0 : 0 ≤ k.k) (hb : k.k.toNat.size < 2 ^ 64) (h : k.iterLR prof = R.ok bs) :
    bs = binary k.k.toNat := by
  obtain ⟨k, r⟩ := k
  lift k to ℕ using h0
  simp only [Int.toNat_natCast] at hb ⊢
  by_cases hk : k = 0
  · subst hk
    cases prof with
    | debug => rw [Nat.cast_zero, iterLR_zero_debug] at h; cases h
    | release =>
      rw [Nat.cast_zero, iterLR_zero_release, R.ok.injEq] at h
      rw [← h]; rfl
  · have hb' : Big.bits k < usizeMod := by
      rw [bits_eq_size, usizeMod]
      exact hb
    rw [iterLR_eq prof r hk hb', R.ok.injEq] at h
    rw [← h, bitsDown_binary]

theorem ladder_dbl (bs : List Bool) : (ladder bs).count .dbl = bs.length := by
  induction bs with
  | nil => rfl
  | cons b bs ih => cases b <;> simp [ladder, ih]

theorem ladder_add (bs : List Bool) : (ladder bs).count .add = bs.count true := by
  induction bs with
  | nil => rfl
  | cons b bs ih => cases b <;> simp [ladder, ih]

theorem ladder_length (bs : List Bool) : (ladder bs).length = bs.length + bs.count true := by
  induction bs with
  | nil => rfl
  | cons b bs ih =>
    cases b
    · simp [ladder, ih]; omega
    · simp [ladder, ih]; omega

theorem ladder_head (bs : List Bool) : (ladder bs).head? ≠ some .add := by
  cases bs <;> simp [ladder]

theorem ladder_inj : ∀ bs cs : List Bool, ladder bs = ladder cs → bs = cs
  | [], [], _ => rfl
  | [], c :: cs, h => by simp [ladder] at h
  | b :: bs, [], h => by simp [ladder] at h
  | b :: bs, c :: cs, h => by
    simp only [ladder, List.cons.injEq, true_and] at h
    cases b <;> cases c
    · rw [ladder_inj bs cs (by simpa using h)]
    · refine absurd (congrArg List.head? h) ?_
      simpa using ladder_head bs
    · refine absurd (congrArg List.head? h).symm ?_
      simpa using ladder_head cs
    · rw [ladder_inj bs cs (by simpa using h)]

theorem binary_inj {m n : ℕ} (h : binary m = binary n) : m = n := by
  have := List.reverse_injective h
  refine Nat.eq_of_testBit_eq fun i => ?_
  rw [Nat.testBit_eq_inth, Nat.testBit_eq_inth, this]

/-- C89, size: the sequence has as many doublings as `k` has binary digits, and as many additions as `k` has digits one; for a reduced scalar the
total is at most twice the number of digits of the order. -/
theorem C89_count (k r : ℕ) (h : k < r) : (ladder (binary k)).count .dbl = k.size ∧ (ladder (binary k)).count .add = k.bits.count true ∧
    (ladder (binary k)).length ≤ 2 * r.size := by
  have h1 : (binary k).length = k.size := by rw [binary, List.length_reverse, Nat.size_eq_bits_len]
  refine ⟨by rw [ladder_dbl, h1], by rw [ladder_add, binary, List.count_reverse], ?_⟩
  rw [ladder_length, h1]
  have h2 : (binary k).count true ≤ k.size := h1 ▸ List.count_le_length
  have h3 : k.size ≤ r.size := Nat.size_le_size h.le
  omega

theorem weierstrass_loopT (P : Weierstrass.Point) : ∀ (bs : List Bool) (q : Weierstrass.Point),
    P.mulLoopT bs q = (P.mulLoop bs q).bind fun S => R.ok (S, ladder bs)
  | [], q => rfl
  | b :: bs, q => by
    simp only [Weierstrass.Point.mulLoopT, Weierstrass.Point.mulLoop]
    cases h : q.coreDoubling with
    | panic w => rfl
    | ok q' =>
      simp only [R.ok_bind]
      cases b
      · simp only [Bool.false_eq_true, if_false, weierstrass_loopT P bs q', ladder]
        cases P.mulLoop bs q' <;> rfl
      · simp only [if_true]
        cases h2 : q'.add P with
        | panic w => rfl
        | ok q'' =>
          simp only [R.ok_bind, R.bind, weierstrass_loopT P bs q'', ladder]
          cases P.mulLoop bs q'' <;> rfl

/-- C89, Weierstrass: forgetting the record gives the multiplication; and whenever that returns, for whatever curve, point and scalar, the record is
the sequence expected from the binary digits of the scalar. -/
theorem C89_weierstrass (prof : Profile) (P : Weierstrass.Point) (k : Scalar) :
    ((P.mulT prof k).bind fun S => R.ok S.1) = P.mul prof k ∧
    (0 ≤ k.k → k.k.toNat.size < 2 ^ 64 → ∀ Q, P.mul prof k = R.ok Q → P.mulT prof k = R.ok (Q, ladder (binary k.k.toNat))) := by
  simp only [Weierstrass.Point.mulT, Weierstrass.Point.mul, Weierstrass.Point.coreMul, weierstrass_loopT]
  cases hr : ((P.e.r : Int) == k.r) with
  | false => simp only [doIfEq_false]; exact ⟨rfl, fun _ _ Q h => by cases h⟩
  | true =>
    simp only [doIfEq_true]
    cases hi : P.e.identity with
    | panic w => exact ⟨rfl, fun _ _ Q h => by cases h⟩
    | ok q =>
      simp only [R.ok_bind]
      cases hb : k.iterLR prof with
      | panic w => exact ⟨rfl, fun _ _ Q h => by cases h⟩
      | ok bs =>
        simp only [R.ok_bind]
        cases hm : P.mulLoop bs q with
        | panic w => exact ⟨rfl, fun _ _ Q h => by cases h⟩
        | ok S =>
          refine ⟨rfl, fun h0 h1 Q h => ?_⟩
          rw [R.ok.injEq] at h
          subst h
          rw [iterLR_binary h0 h1 hb]; rfl

/-- C89, Weierstrass: the sequence of group operations determines the scalar: two multiplications, even of different points on different curves, perform
the same sequence exactly if the values of the scalars are the same. -/
theorem C89_weierstrass_reveals (prof : Profile) (P P' : Weierstrass.Point) (k k' : Scalar) (h0 : 0 ≤ k.k) (h1 : k.k.toNat.size < 2 ^ 64) (h0' : 0 ≤ k'.k)
    (h1' : k'.k.toNat.size < 2 ^ 64) (Q Q' : Weierstrass.Point) (t t' : List GroupOp) (h : P.mulT prof k = R.ok (Q, t))
    (h' : P'.mulT prof k' = R.ok (Q', t')) : t = t' ↔ k.k = k'.k := by
  have key : ∀ (P : Weierstrass.Point) (k : Scalar) (Q : Weierstrass.Point) (t : List GroupOp), 0 ≤ k.k → k.k.toNat.size < 2 ^ 64 → P.mulT prof k = R.ok (Q, t) →
      t = ladder (binary k.k.toNat) := by
    intro P k Q t h0 h1 h
    have hm := (C89_weierstrass prof P k).1
    rw [h] at hm
    have := (C89_weierstrass prof P k).2 h0 h1 Q hm.symm
    rw [h, R.ok.injEq, Prod.mk.injEq] at this
    exact this.2
  rw [key P k Q t h0 h1 h, key P' k' Q' t' h0' h1' h']
  constructor
  · intro he
    have := binary_inj (ladder_inj _ _ he)
    omega
  · intro he; rw [he]

theorem montgomery_loopT (P : Montgomery.Point) : ∀ (bs : List Bool) (q : Montgomery.Point),
    P.mulLoopT bs q = (P.mulLoop bs q).bind fun S => R.ok (S, ladder bs)
  | [], q => rfl
  | b :: bs, q => by
    simp only [Montgomery.Point.mulLoopT, Montgomery.Point.mulLoop]
    cases h : q.add q with
    | panic w => rfl
    | ok q' =>
      simp only [R.ok_bind]
      cases b
      · simp only [Bool.false_eq_true, if_false, montgomery_loopT P bs q', ladder]
        cases P.mulLoop bs q' <;> rfl
      · simp only [if_true]
        cases h2 : q'.add P with
        | panic w => rfl
        | ok q'' =>
          simp only [R.ok_bind, R.bind, montgomery_loopT P bs q'', ladder]
          cases P.mulLoop bs q'' <;> rfl

/-- C89, Montgomery: forgetting the record gives the multiplication; and whenever that returns, for whatever curve, point and scalar, the record is
the sequence expected from the binary digits of the scalar. -/
theorem C89_montgomery (prof : Profile) (P : Montgomery.Point) (k : Scalar) :
    ((P.mulT prof k).bind fun S => R.ok S.1) = P.mul prof k ∧
    (0 ≤ k.k → k.k.toNat.size < 2 ^ 64 → ∀ Q, P.mul prof k = R.ok Q → P.mulT prof k = R.ok (Q, ladder (binary k.k.toNat))) := by
  simp only [Montgomery.Point.mulT, Montgomery.Point.mul, Montgomery.Point.coreMul, montgomery_loopT]
  cases hr : ((P.e.r : Int) == k.r) with
  | false => simp only [doIfEq_false]; exact ⟨rfl, fun _ _ Q h => by cases h⟩
  | true =>
    simp only [doIfEq_true]
    cases hi : P.e.identity with
    | panic w => exact ⟨rfl, fun _ _ Q h => by cases h⟩
    | ok q =>
      simp only [R.ok_bind]
      cases hb : k.iterLR prof with
      | panic w => exact ⟨rfl, fun _ _ Q h => by cases h⟩
      | ok bs =>
        simp only [R.ok_bind]
        cases hm : P.mulLoop bs q with
        | panic w => exact ⟨rfl, fun _ _ Q h => by cases h⟩
        | ok S =>
          refine ⟨rfl, fun h0 h1 Q h => ?_⟩
          rw [R.ok.injEq] at h
          subst h
          rw [iterLR_binary h0 h1 hb]; rfl

/-- C89, Montgomery: the sequence of group operations determines the scalar: two multiplications, even of different points on different curves, perform
the same sequence exactly if the values of the scalars are the same. -/
theorem C89_montgomery_reveals (prof : Profile) (P P' : Montgomery.Point) (k k' : Scalar) (h0 : 0 ≤ k.k) (h1 : k.k.toNat.size < 2 ^ 64) (h0' : 0 ≤ k'.k)
    (h1' : k'.k.toNat.size < 2 ^ 64) (Q Q' : Montgomery.Point) (t t' : List GroupOp) (h : P.mulT prof k = R.ok (Q, t))
    (h' : P'.mulT prof k' = R.ok (Q', t')) : t = t' ↔ k.k = k'.k := by
  have key : ∀ (P : Montgomery.Point) (k : Scalar) (Q : Montgomery.Point) (t : List GroupOp), 0 ≤ k.k → k.k.toNat.size < 2 ^ 64 → P.mulT prof k = R.ok (Q, t) →
      t = ladder (binary k.k.toNat) := by
    intro P k Q t h0 h1 h
    have hm := (C89_montgomery prof P k).1
    rw [h] at hm
    have := (C89_montgomery prof P k).2 h0 h1 Q hm.symm
    rw [h, R.ok.injEq, Prod.mk.injEq] at this
    exact this.2
  rw [key P k Q t h0 h1 h, key P' k' Q' t' h0' h1' h']
  constructor
  · intro he
    have := binary_inj (ladder_inj _ _ he)
    omega
  · intro he; rw [he]

theorem edwards_loopT (P : Edwards.Point) : ∀ (bs : List Bool) (q : Edwards.Point),
    P.mulLoopT bs q = (P.mulLoop bs q).bind fun S => R.ok (S, ladder bs)
  | [], q => rfl
  | b :: bs, q => by
    simp only [Edwards.Point.mulLoopT, Edwards.Point.mulLoop]
    cases h : q.add q with
    | panic w => rfl
    | ok q' =>
      simp only [R.ok_bind]
      cases b
      · simp only [Bool.false_eq_true, if_false, edwards_loopT P bs q', ladder]
        cases P.mulLoop bs q' <;> rfl
      · simp only [if_true]
        cases h2 : q'.add P with
        | panic w => rfl
        | ok q'' =>
          simp only [R.ok_bind, R.bind, edwards_loopT P bs q'', ladder]
          cases P.mulLoop bs q'' <;> rfl

/-- C89, Edwards: forgetting the record gives the multiplication; and whenever that returns, for whatever curve, point and scalar, the record is
the sequence expected from the binary digits of the scalar. -/
theorem C89_edwards (prof : Profile) (P : Edwards.Point) (k : Scalar) :
    ((P.mulT prof k).bind fun S => R.ok S.1) = P.mul prof k ∧
    (0 ≤ k.k → k.k.toNat.size < 2 ^ 64 → ∀ Q, P.mul prof k = R.ok Q → P.mulT prof k = R.ok (Q, ladder (binary k.k.toNat))) := by
  simp only [Edwards.Point.mulT, Edwards.Point.mul, Edwards.Point.coreMul, edwards_loopT]
  cases hr : ((P.e.r : Int) == k.r) with
  | false => simp only [doIfEq_false]; exact ⟨rfl, fun _ _ Q h => by cases h⟩
  | true =>
    simp only [doIfEq_true]
    cases hi : P.e.identity with
    | panic w => exact ⟨rfl, fun _ _ Q h => by cases h⟩
    | ok q =>
      simp only [R.ok_bind]
      cases hb : k.iterLR prof with
      | panic w => exact ⟨rfl, fun _ _ Q h => by cases h⟩
      | ok bs =>
        simp only [R.ok_bind]
        cases hm : P.mulLoop bs q with
        | panic w => exact ⟨rfl, fun _ _ Q h => by cases h⟩
        | ok S =>
          refine ⟨rfl, fun h0 h1 Q h => ?_⟩
          rw [R.ok.injEq] at h
          subst h
          rw [iterLR_binary h0 h1 hb]; rfl

/-- C89, Edwards: the sequence of group operations determines the scalar: two multiplications, even of different points on different curves, perform
the same sequence exactly if the values of the scalars are the same. -/
theorem C89_edwards_reveals (prof : Profile) (P P' : Edwards.Point) (k k' : Scalar) (h0 : 0 ≤ k.k) (h1 : k.k.toNat.size < 2 ^ 64) (h0' : 0 ≤ k'.k)
    (h1' : k'.k.toNat.size < 2 ^ 64) (Q Q' : Edwards.Point) (t t' : List GroupOp) (h : P.mulT prof k = R.ok (Q, t))
    (h' : P'.mulT prof k' = R.ok (Q', t')) : t = t' ↔ k.k = k'.k := by
  have key : ∀ (P : Edwards.Point) (k : Scalar) (Q : Edwards.Point) (t : List GroupOp), 0 ≤ k.k → k.k.toNat.size < 2 ^ 64 → P.mulT prof k = R.ok (Q, t) →
      t = ladder (binary k.k.toNat) := by
    intro P k Q t h0 h1 h
    have hm := (C89_edwards prof P k).1
    rw [h] at hm
    have := (C89_edwards prof P k).2 h0 h1 Q hm.symm
    rw [h, R.ok.injEq, Prod.mk.injEq] at this
    exact this.2
  rw [key P k Q t h0 h1 h, key P' k' Q' t' h0' h1' h']
  constructor
  · intro he
    have := binary_inj (ladder_inj _ _ he)
    omega
  · intro he; rw [he]

/-- `G * 5` on the three kinds of curve: `5` is `101` in binary. -/
example : (do
    let e ← P256
    return (← (← e.getGenerator).mulT .debug (← e.newScalar 5)).2) = R.ok [.dbl, .add, .dbl, .dbl, .add] ∧ (do
    let e ← CURVE25519
    return (← (← e.getGenerator).mulT .debug (← e.newScalar 5)).2) = R.ok [.dbl, .add, .dbl, .dbl, .add] ∧ (do
    let e ← EDWARDS25519
    return (← (← e.getGenerator).mulT .debug (← e.newScalar 5)).2) = R.ok [.dbl, .add, .dbl, .dbl, .add] ∧
    ladder (binary 5) = [.dbl, .add, .dbl, .dbl, .add] := by
  refine ⟨by decide +kernel, by decide +kernel, by decide +kernel, by decide +kernel⟩

end Redox.Props
