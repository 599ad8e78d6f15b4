import Verif.Props.Received

/-!
# C117: encodings of opposite points
-/

set_option linter.unusedSectionVars false

namespace Redox

open Spec

namespace Props

theorem sec1_flip {p : ℕ} [Fact p.Prime] (hodd : p % 2 = 1) {x y : ZMod p} {t t' : Byte} (ht' : t' = 2 ∨ t' = 3) (hne : t ≠ t') {xs : List Byte}
    (h : IsSec1 ((Big.bits p + 7) / 8) x y true (t :: xs)) (hy : y ≠ 0) : IsSec1 ((Big.bits p + 7) / 8) x (-y) true (t' :: xs) := by
  obtain ⟨xs', ys, lx, ly, vx, vy, he⟩ := h
  rw [if_pos rfl, List.cons.injEq] at he
  obtain ⟨ht, rfl⟩ := he
  refine ⟨xs, Big.fixedBE ((Big.bits p + 7) / 8) (-y).val, lx,
    Big.fixedBE_length (Big.one_le_size (Fact.out : p.Prime).ne_zero) (val_lt_size (-y)), vx, by rw [beValue_eq, fromBE_fixed0], ?_⟩
  rw [if_pos rfl, List.cons.injEq, and_iff_left rfl]
  have hp := val_neg_parity hodd hy
  rcases ht' with rfl | rfl
  · have : ¬ y.val % 2 = 0 := fun h => hne (by rw [ht, if_pos h])
    rw [if_pos (by omega)]
  · have : y.val % 2 = 0 := by
      by_contra h
      exact hne (by rw [ht, if_neg h])
    rw [if_neg (by omega)]

theorem sec1_compressed {p : ℕ} {n : ℕ} {x y : ZMod p} {c : Bool} {t : Byte} {xs : List Byte} (ht : t = 2 ∨ t = 3) (h : IsSec1 n x y c (t :: xs)) : c = true := by
  cases c
  · obtain ⟨_, _, _, _, _, _, h⟩ := h
    rw [if_neg (by decide), List.cons.injEq] at h
    rcases ht with rfl | rfl
    · exact absurd h.1 (by decide)
    · exact absurd h.1 (by decide)
  · rfl

namespace We

open Weierstrass WLink RCB

section
variable (p : ℕ) [Fact p.Prime] (e : Curve)

theorem some_ne (h2 : NoTwoTorsion p e) {x y : ZMod p} (hn : (wGroup p e).Nonsingular x y) : y ≠ 0 := by
  rintro rfl
  have h := h2 (.some x 0 hn) (WeierstrassCurve.Affine.Point.add_self_of_Y_eq (by simp [WeierstrassCurve.Affine.negY]))
  exact absurd h (by simp)

/-- C117, Weierstrass: changing the tag of an accepted compressed encoding gives an accepted encoding, of the opposite point, which is another point. -/
theorem _root_.Redox.Props.C117_weierstrass_decode (he : WCurve p e) (h2 : NoTwoTorsion p e) (hs : p % 4 = 3 ∨ p % 8 = 5) (t t' : Byte)
    (ht : t = 2 ∨ t = 3) (ht' : t' = 2 ∨ t' = 3) (hne : t ≠ t') (xs : List Byte) (P : Point) (hP : e.decode (t :: xs) = R.ok (.ok P)) :
    ∃ P' N, e.decode (t' :: xs) = R.ok (.ok P') ∧ P.neg = R.ok N ∧ P'.eq N = R.ok true ∧ P'.eq P = R.ok false := by
  obtain ⟨x, y, hn, c, hsec, hd⟩ := (C105_weierstrass_decode p e he h2 hs _).1 P hP
  obtain rfl := sec1_compressed ht hsec
  rw [size_eq he] at hsec
  have hy := some_ne p e h2 hn
  have hflip := sec1_flip (odd_p he) ht' hne hsec hy
  rw [← size_eq he] at hflip
  have hn' : (wGroup p e).Nonsingular x (-y) := by
    have := (WeierstrassCurve.Affine.nonsingular_neg x y).2 hn
    simpa [WeierstrassCurve.Affine.negY, wGroup] using this
  obtain ⟨P', hP', hd'⟩ := (C105_weierstrass_decode p e he h2 hs _).2 x (-y) hn' true hflip
  obtain ⟨N, hN, dN⟩ := (C23_group_law p e he h2 P P _ _ hd hd).2.2
  have hneg : (.some x (-y) hn' : (wGroup p e).Point) = -.some x y hn := by
    rw [WeierstrassCurve.Affine.Point.neg_some]
    congr 1
    simp [WeierstrassCurve.Affine.negY]
  refine ⟨P', N, hP', hN, ?_, ?_⟩
  · rw [C27_eq p e _ _ _ _ hd' dN, hneg, decide_eq_true rfl]
  · rw [C27_eq p e _ _ _ _ hd' hd, decide_eq_false]
    intro h
    rw [WeierstrassCurve.Affine.Point.some.injEq] at h
    have h1 := val_neg_parity (odd_p he) hy
    exact h1 (by rw [h.2])

/-- C117, Weierstrass: the compressed encodings of two points other than the identity agree after the tag exactly if the points are equal or opposite. -/
theorem _root_.Redox.Props.C117_weierstrass_encode (he : WCurve p e) (P Q : Point) (A B : (wGroup p e).Point) (hP : WDenotes p e P A)
    (hQ : WDenotes p e Q B) (hA : A ≠ 0) (hB : B ≠ 0) :
    ∃ s t xs ys, P.encode true = R.ok (s :: xs) ∧ Q.encode true = R.ok (t :: ys) ∧ (xs = ys ↔ A = B ∨ A = -B) := by
  rcases A with _ | ⟨x, y, hn⟩
  · exact absurd rfl hA
  rcases B with _ | ⟨x', y', hn'⟩
  · exact absurd rfl hB
  have hP' := hP
  have hQ' := hQ
  obtain ⟨h1, h2, h3, h4, h5, h6, h7⟩ := hP'
  obtain ⟨k1, k2, k3, k4, k5, k6, k7⟩ := hQ'
  obtain ⟨bs, hbs, xs, us, lx, -, vx, -, rfl⟩ := C98_weierstrass_encode p e he P h1 h2 h3 h4 x y h5 h6 h7 true
  obtain ⟨cs, hcs, xs', us', lx', -, vx', -, rfl⟩ := C98_weierstrass_encode p e he Q k1 k2 k3 k4 x' y' k5 k6 k7 true
  rw [if_pos rfl] at hbs hcs
  refine ⟨_, _, xs, xs', hbs, hcs, ?_⟩
  have hxx : xs = xs' ↔ x = x' := by
    constructor
    · rintro rfl
      exact ZMod.val_injective p (vx.symm.trans vx')
    · rintro rfl
      rw [beValue_eq] at vx vx'
      exact Big.fromBytesBE_inj (lx.trans lx'.symm) (vx.trans vx'.symm)
  rw [hxx]
  constructor
  · rintro rfl
    have e1 := ((RCB.nonsingular_iff _ _ x y).1 hn).1
    have e2 := ((RCB.nonsingular_iff _ _ x y').1 hn').1
    rcases sq_eq_sq_iff_eq_or_eq_neg.1 (e1.trans e2.symm) with rfl | rfl
    · exact Or.inl rfl
    · right
      rw [WeierstrassCurve.Affine.Point.neg_some]
      congr 1
      simp [WeierstrassCurve.Affine.negY]
  · rintro (h | h)
    · exact (WeierstrassCurve.Affine.Point.some.inj h).1
    · rw [WeierstrassCurve.Affine.Point.neg_some] at h
      exact (WeierstrassCurve.Affine.Point.some.inj h).1

end
end We

namespace Mo

open Montgomery MLink

section
variable (p : ℕ) [Fact p.Prime] (e : Curve)

/-- C117, Montgomery: changing the tag of an accepted compressed encoding gives an accepted encoding, of the opposite point. -/
theorem _root_.Redox.Props.C117_montgomery_decode (he : MCurve p e) (hb : val p e.b = 1) (hs : p % 4 = 3 ∨ p % 8 = 5) (t t' : Byte)
    (ht : t = 2 ∨ t = 3) (ht' : t' = 2 ∨ t' = 3) (hne : t ≠ t') (xs : List Byte) (P : Point) (hP : e.decode (t :: xs) = R.ok (.ok P)) :
    ∃ P' N, e.decode (t' :: xs) = R.ok (.ok P') ∧ P.neg = R.ok N ∧ P'.eq N = R.ok true := by
  obtain ⟨x, y, hn, hsec, hd⟩ := (C105_montgomery_decode p e he hb hs _).1 P hP
  have hn' : (mGroup p e).Nonsingular x (-y) := by
    have := (WeierstrassCurve.Affine.nonsingular_neg x y).2 hn
    simpa [WeierstrassCurve.Affine.negY, mGroup] using this
  have hflip : ReadsAs e.f.sizeBytes x (-y) (t' :: xs) := by
    rw [size_eq he] at hsec ⊢
    by_cases hy : y = 0
    · subst hy
      have hx : xs.length = (Big.bits p + 7) / 8 ∧ beValue xs = x.val := by
        rcases hsec with ⟨c, h⟩ | ⟨-, xs', l, v, h⟩
        · obtain rfl := sec1_compressed ht h
          obtain ⟨xs', ys, lx, -, vx, -, h⟩ := h
          rw [if_pos rfl, List.cons.injEq] at h
          obtain ⟨-, rfl⟩ := h
          exact ⟨lx, vx⟩
        · rw [List.cons.injEq] at h
          obtain ⟨-, rfl⟩ := h
          exact ⟨l, v⟩
      rcases ht' with rfl | rfl
      · refine Or.inl ⟨true, xs, Big.fixedBE ((Big.bits p + 7) / 8) (-0 : ZMod p).val, hx.1,
          Big.fixedBE_length (Big.one_le_size (Fact.out : p.Prime).ne_zero) (val_lt_size _), hx.2, by rw [beValue_eq, fromBE_fixed0], ?_⟩
        simp
      · exact Or.inr ⟨neg_zero, xs, hx.1, hx.2, rfl⟩
    · rcases hsec with ⟨c, h⟩ | ⟨h, -⟩
      · obtain rfl := sec1_compressed ht h
        exact Or.inl ⟨true, sec1_flip (odd_p he) ht' hne h hy⟩
      · exact absurd h hy
  obtain ⟨P', hP', hd'⟩ := (C105_montgomery_decode p e he hb hs _).2 x (-y) hn' hflip
  obtain ⟨N, hN, dN⟩ : ∃ N, P.neg = R.ok N ∧ MDenotes p e N (-.some x y hn) := by
    obtain ⟨X, Y, Z, rfl, hA⟩ := denotes_iff.1 hd
    exact ⟨_, neg_pt he hb hA, denotes_iff.2 ⟨_, _, _, rfl, Rep.neg hA⟩⟩
  have hneg : (.some x (-y) hn' : (mGroup p e).Point) = -.some x y hn := by
    rw [WeierstrassCurve.Affine.Point.neg_some]
    congr 1
    simp [WeierstrassCurve.Affine.negY]
  exact ⟨P', N, hP', hN, by rw [(C32_eq p e _ _ _ _ hd' dN).1, hneg, decide_eq_true rfl]⟩

/-- C117, Montgomery: the compressed encodings of two points other than the identity agree after the tag exactly if the points are equal or opposite. -/
theorem _root_.Redox.Props.C117_montgomery_encode (he : MCurve p e) (P Q : Point) (A B : (mGroup p e).Point) (hP : MDenotes p e P A)
    (hQ : MDenotes p e Q B) (hA : A ≠ 0) (hB : B ≠ 0) :
    ∃ s t xs ys, P.encode true = R.ok (s :: xs) ∧ Q.encode true = R.ok (t :: ys) ∧ (xs = ys ↔ A = B ∨ A = -B) := by
  rcases A with _ | ⟨x, y, hn⟩
  · exact absurd rfl hA
  rcases B with _ | ⟨x', y', hn'⟩
  · exact absurd rfl hB
  have hP' := hP
  have hQ' := hQ
  obtain ⟨h1, h2, h3, h4, h5, h6, h7⟩ := hP'
  obtain ⟨k1, k2, k3, k4, k5, k6, k7⟩ := hQ'
  obtain ⟨bs, hbs, xs, us, lx, -, vx, -, rfl⟩ := C98_montgomery_encode p e he P h1 h2 h3 h4 x y h5 h6 h7 true
  obtain ⟨cs, hcs, xs', us', lx', -, vx', -, rfl⟩ := C98_montgomery_encode p e he Q k1 k2 k3 k4 x' y' k5 k6 k7 true
  rw [if_pos rfl] at hbs hcs
  refine ⟨_, _, xs, xs', hbs, hcs, ?_⟩
  have hxx : xs = xs' ↔ x = x' := by
    constructor
    · rintro rfl
      exact ZMod.val_injective p (vx.symm.trans vx')
    · rintro rfl
      rw [beValue_eq] at vx vx'
      exact Big.fromBytesBE_inj (lx.trans lx'.symm) (vx.trans vx'.symm)
  rw [hxx]
  constructor
  · rintro rfl
    have e1 := (Redox.Mont.nonsingular_iff _ x y).1 hn |>.1
    have e2 := (Redox.Mont.nonsingular_iff _ x y').1 hn' |>.1
    rcases sq_eq_sq_iff_eq_or_eq_neg.1 (e1.trans e2.symm) with rfl | rfl
    · exact Or.inl rfl
    · right
      rw [WeierstrassCurve.Affine.Point.neg_some]
      congr 1
      simp [WeierstrassCurve.Affine.negY]
  · rintro (h | h)
    · exact (WeierstrassCurve.Affine.Point.some.inj h).1
    · rw [WeierstrassCurve.Affine.Point.neg_some] at h
      exact (WeierstrassCurve.Affine.Point.some.inj h).1

end
end Mo

namespace Ed

open Edwards ELink Edw

section
variable (p : ℕ) [Fact p.Prime] (e : Curve)

theorem leValue_append (bs : List Byte) (b : Byte) : leValue (bs ++ [b]) = leValue bs + 256 ^ bs.length * b.toNat := by
  rw [leValue_eq, leValue_eq]
  induction bs with
  | nil => simp [Big.fromBytesLE]
  | cons c bs ih => rw [List.cons_append, Big.fromBytesLE, ih, Big.fromBytesLE, List.length_cons]; ring

theorem leValue_lt (bs : List Byte) : leValue bs < 256 ^ bs.length := by
  rw [leValue_eq]
  induction bs with
  | nil => simp [Big.fromBytesLE]
  | cons c bs ih =>
    rw [Big.fromBytesLE, List.length_cons, pow_succ]
    have := c.toNat_lt
    omega

theorem toggle (b : Byte) : (b ^^^ 128).toNat = if b.toNat < 128 then b.toNat + 128 else b.toNat - 128 := by
  have key : ∀ n < 256, n ^^^ 128 = if n < 128 then n + 128 else n - 128 := by decide +kernel
  rw [UInt8.toNat_xor]
  exact key _ b.toNat_lt

/-- The top bit of an encoding is the parity of `x`; toggling it changes the parity and nothing else. -/
theorem rfc_toggle {A : eGroup p e} {bs : List Byte} {b : Byte} (h : IsRfc8032 A (bs ++ [b])) :
    (bs ++ [b ^^^ 128]).length = (Big.bits p + 8) / 8 ∧
      leValue (bs ++ [b ^^^ 128]) = A.y.val + 2 ^ (8 * (bs ++ [b ^^^ 128]).length - 1) * (1 - A.x.val % 2) := by
  obtain ⟨hl, hv⟩ := h
  have hlen : (bs ++ [b ^^^ 128]).length = (bs ++ [b]).length := by simp
  refine ⟨hlen.trans hl, ?_⟩
  have hpow : 2 ^ (8 * (bs ++ [b]).length - 1) = 128 * 256 ^ bs.length := by
    rw [List.length_append, List.length_singleton, show 8 * (bs.length + 1) - 1 = 8 * bs.length + 7 by omega, pow_add, pow_mul]
    norm_num [mul_comm]
  have hy : A.y.val < 128 * 256 ^ bs.length := by
    rw [← hpow, hl]
    have h1 := ZMod.val_lt A.y
    have h2 : p < 2 ^ (8 * ((Big.bits p + 8) / 8) - 1) := lt_of_lt_of_le (Big.lt_two_pow_bits p) (Nat.pow_le_pow_right (by decide) (by omega))
    omega
  rw [hlen, hpow, leValue_append, toggle]
  rw [hpow, leValue_append] at hv
  have hlt := leValue_lt bs
  have hb := b.toNat_lt
  generalize 256 ^ bs.length = c at *
  generalize leValue bs = v at *
  rcases Nat.mod_two_eq_zero_or_one A.x.val with h0 | h0
  · rw [h0] at hv ⊢
    have : b.toNat < 128 := by
      by_contra hc
      have : c * 128 ≤ c * b.toNat := Nat.mul_le_mul_left _ (by omega)
      omega
    rw [if_pos this, mul_add]
    omega
  · rw [h0] at hv ⊢
    have : ¬ b.toNat < 128 := by
      intro hc
      have : c * b.toNat ≤ c * 127 := Nat.mul_le_mul_left _ (by omega)
      omega
    rw [if_neg this, Nat.mul_sub]
    have : c * 128 ≤ c * b.toNat := Nat.mul_le_mul_left _ (by omega)
    omega

/-- C117, Edwards: toggling the top bit of an accepted encoding gives an accepted encoding, of the opposite point, if the point has `x ≠ 0`, and otherwise a string
that is not accepted. -/
theorem _root_.Redox.Props.C117_edwards_decode [he : ECurve p e] (hs : p % 4 = 3 ∨ p % 8 = 5) (bs : List Byte) (b : Byte) (P : Point)
    (hP : e.decode (bs ++ [b]) = R.ok (.ok P)) :
    (val p P.c.x ≠ 0 → ∃ P' N, e.decode (bs ++ [b ^^^ 128]) = R.ok (.ok P') ∧ P.neg = R.ok N ∧ P'.eq N = R.ok true ∧ P'.eq P = R.ok false) ∧
    (val p P.c.x = 0 → ∀ P', e.decode (bs ++ [b ^^^ 128]) ≠ R.ok (.ok P')) := by
  obtain ⟨A, hA, hd⟩ := (C105_edwards_decode p e hs _).1 P hP
  obtain ⟨hl, hv⟩ := rfc_toggle p e hA
  have hodd : p % 2 = 1 := he.params.prime.eq_two_or_odd.resolve_left he.params.odd
  have hx : val p P.c.x = A.x * val p P.c.z := hd.2.2.2.2.2.2.1
  have hz : val p P.c.z ≠ 0 := hd.2.2.2.2.2.1
  constructor
  · intro h0
    have hx0 : A.x ≠ 0 := fun h => h0 (by rw [hx, h, zero_mul])
    have hpar := val_neg_parity hodd hx0
    have hA' : IsRfc8032 (-A) (bs ++ [b ^^^ 128]) := by
      refine ⟨hl, ?_⟩
      rw [hv, neg_x, neg_y, show 1 - A.x.val % 2 = (-A.x).val % 2 by omega]
    obtain ⟨P', hP', hd'⟩ := (C105_edwards_decode p e hs _).2 _ hA'
    obtain ⟨N, hN, dN⟩ := (C36_group_law p e P P _ _ hd hd).2.2.1
    refine ⟨P', N, hP', hN, ?_, ?_⟩
    · rw [C36_eq p e _ _ _ _ hd' dN, decide_eq_true rfl]
    · rw [C36_eq p e _ _ _ _ hd' hd, decide_eq_false]
      intro h
      have := congrArg EPt.x h
      rw [neg_x] at this
      exact hpar (by rw [this])
  · intro h0 P' hP'
    have hx0 : A.x = 0 := (mul_eq_zero.1 (hx.symm.trans h0)).resolve_right hz
    obtain ⟨B, hB, -⟩ := (C105_edwards_decode p e hs _).1 P' hP'
    have hp2 : p < 2 ^ (8 * (bs ++ [b ^^^ 128]).length - 1) := by
      rw [hl]
      exact lt_of_lt_of_le (Big.lt_two_pow_bits p) (Nat.pow_le_pow_right (by decide) (by omega))
    have hBv := hB.2
    rw [hv, hx0, ZMod.val_zero, show 1 - 0 % 2 = 1 from rfl, mul_one] at hBv
    have h1 := ZMod.val_lt A.y
    have h2 := ZMod.val_lt B.y
    generalize 2 ^ (8 * (bs ++ [b ^^^ 128]).length - 1) = c at *
    rcases Nat.mod_two_eq_zero_or_one B.x.val with h3 | h3
    · rw [h3, mul_zero] at hBv
      omega
    · rw [h3, mul_one] at hBv
      have hy : A.y = B.y := ZMod.val_injective p (by omega)
      have hA1 : A.y ^ 2 = 1 := by
        have := A.h
        rw [hx0] at this
        linear_combination this
      have hB0 : B.x = 0 := B.x_eq_zero_of (by rw [← hy, hA1])
      rw [hB0, ZMod.val_zero] at h3
      omega


/-- C117, Edwards: the encodings of two points agree, apart from the top bit, exactly if the points are equal or opposite. -/
theorem _root_.Redox.Props.C117_edwards_encode [he : ECurve p e] (hs : p % 4 = 3 ∨ p % 8 = 5) (P Q : Point) (A B : eGroup p e)
    (hP : EDenotes p e P A) (hQ : EDenotes p e Q B) (c c' : Bool) :
    ∃ s t, P.encode c = R.ok s ∧ Q.encode c' = R.ok t ∧ s.length = t.length ∧
      (leValue s % 2 ^ (8 * s.length - 1) = leValue t % 2 ^ (8 * t.length - 1) ↔ A = B ∨ A = -B) := by
  obtain ⟨s, -, h1, l1, v1, -⟩ := C39_roundtrip p e hs P A hP c
  obtain ⟨t, -, h2, l2, v2, -⟩ := C39_roundtrip p e hs Q B hQ c'
  refine ⟨s, t, h1, h2, l1.trans l2.symm, ?_⟩
  have hp2 : p < 2 ^ (8 * ((Big.bits p + 8) / 8) - 1) :=
    lt_of_lt_of_le (Big.lt_two_pow_bits p) (Nat.pow_le_pow_right (by decide) (by omega))
  rw [v1, v2, l1, l2, Nat.add_mul_mod_self_left, Nat.add_mul_mod_self_left, Nat.mod_eq_of_lt ((ZMod.val_lt _).trans hp2),
    Nat.mod_eq_of_lt ((ZMod.val_lt _).trans hp2)]
  constructor
  · intro h
    have hy : A.y = B.y := ZMod.val_injective p h
    have hA := A.h
    have hB := B.h
    rw [← hy] at hB
    have hne : val p e.a - val p e.d * A.y ^ 2 ≠ 0 := by
      intro h0
      have hy0 : A.y ≠ 0 := fun h => he.a_ne (by rw [h] at h0; linear_combination h0)
      refine he.d_nsq ?_
      obtain ⟨r, hr⟩ := he.a_sq
      exact ⟨r / A.y, by field_simp; linear_combination hr - h0⟩
    have hx : A.x ^ 2 = B.x ^ 2 := mul_right_cancel₀ hne (by linear_combination hA - hB)
    rcases sq_eq_sq_iff_eq_or_eq_neg.1 hx with h | h
    · exact Or.inl (EPt.ext h hy)
    · exact Or.inr (EPt.ext (by rw [h, neg_x]) (by rw [hy, neg_y]))
  · rintro (rfl | rfl)
    · rfl
    · rw [neg_y]

end
end Ed
end Props
end Redox
