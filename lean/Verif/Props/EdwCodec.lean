import Verif.Props.EdwPoints
import Verif.Props.WeierCodec

/-!
# C39, C40: encoding and decoding of Edwards points
-/

set_option linter.unusedSectionVars false

namespace Redox.Props.Ed

open Spec Edwards ELink Edw

/-- The number a byte string denotes, least significant byte first (specification). -/
def leValue (bs : List Byte) : ℕ := beValue bs.reverse

theorem leValue_eq (bs : List Byte) : leValue bs = Big.fromBytesLE bs := by
  rw [leValue, beValue_eq, Big.fromBytesBE, List.reverse_reverse]

/-- The 8·k-1 low bits and the top bit of a string of k bytes. -/
theorem split_bits (xs : List Byte) (b : Byte) :
    leValue (xs ++ [b]) % 2 ^ (8 * (xs.length + 1) - 1) = Big.fromBytesLE xs + 256 ^ xs.length * (b.toNat % 128) ∧
    leValue (xs ++ [b]) / 2 ^ (8 * (xs.length + 1) - 1) = b.toNat / 128 := by
  have h1 : 2 ^ (8 * (xs.length + 1) - 1) = 256 ^ xs.length * 128 := by
    rw [show (256 : ℕ) = 2 ^ 8 by norm_num, ← pow_mul, show (128 : ℕ) = 2 ^ 7 by norm_num, ← pow_add]
    congr 1
  have hlt := Big.fromBytesLE_lt xs
  rw [leValue_eq, Big.fromBytesLE_snoc, h1]
  have hb : b.toNat = 128 * (b.toNat / 128) + b.toNat % 128 := (Nat.div_add_mod _ _).symm
  have hm : b.toNat % 128 < 128 := Nat.mod_lt _ (by norm_num)
  generalize b.toNat / 128 = q at *
  generalize b.toNat % 128 = r at *
  have hlo : Big.fromBytesLE xs + 256 ^ xs.length * r < 256 ^ xs.length * 128 := by
    have : 256 ^ xs.length * (r + 1) ≤ 256 ^ xs.length * 128 := Nat.mul_le_mul_left _ (by omega)
    have : 256 ^ xs.length * (r + 1) = 256 ^ xs.length * r + 256 ^ xs.length := by ring
    omega
  have e : Big.fromBytesLE xs + 256 ^ xs.length * b.toNat =
      (Big.fromBytesLE xs + 256 ^ xs.length * r) + 256 ^ xs.length * 128 * q := by rw [hb]; ring
  rw [e, Nat.add_mul_mod_self_left, Nat.mod_eq_of_lt hlo, Nat.add_mul_div_left _ _ (by positivity),
    Nat.div_eq_of_lt hlo, zero_add]
  exact ⟨rfl, rfl⟩

theorem snoc_of_length {bs : List Byte} {n : ℕ} (h : bs.length = n) (hn : 1 ≤ n) :
    ∃ xs b, bs = xs ++ [b] ∧ xs.length + 1 = n := by
  rcases List.eq_nil_or_concat bs with h' | ⟨xs, b, h'⟩
  · rw [h'] at h; simp at h; omega
  · exact ⟨xs, b, by simpa using h', by rw [h'] at h; simpa using h⟩

section
variable {p : ℕ} [Fact p.Prime] {e : Curve} [he : ECurve p e]

include he

theorem par_neg {v : ZMod p} (hv : v ≠ 0) : par (-v) = 1 - par v := by
  have h := val_neg_parity (he.params.prime.eq_two_or_odd.resolve_left he.params.odd) hv
  have := par_lt v
  have := par_lt (-v)
  unfold par at *
  omega

theorem den_ne (y : ZMod p) : val p e.d * y ^ 2 - val p e.a ≠ 0 := by
  intro h
  obtain ⟨α, hα⟩ := he.a_sq
  have hy : y ≠ 0 := by rintro rfl; exact he.a_ne (by linear_combination -h)
  rw [hα] at h
  exact he.d_nsq ⟨α / y, by field_simp; linear_combination h⟩

theorem xsq_iff (x y : ZMod p) : val p e.a * x ^ 2 + y ^ 2 = 1 + val p e.d * x ^ 2 * y ^ 2 ↔
    x * x = (y ^ 2 - 1) / (val p e.d * y ^ 2 - val p e.a) := by
  rw [eq_div_iff (den_ne y)]
  constructor <;> intro h <;> linear_combination -h

/-- The decoder after the length check, on a complete curve. -/
theorem decode_spec (hs : SqrtOK p) (xs : List Byte) (b : Byte) (hx : xs.length + 1 = encSize p) (n : ℕ)
    (hn : Big.fromBytesLE xs + 256 ^ xs.length * (b.toNat % 128) = n) :
    (p ≤ n → e.decode (xs ++ [b]) = R.ok (.error .invalidYChosen)) ∧
    (n < p → (¬ ∃ A : eGroup p e, A.y = n) → e.decode (xs ++ [b]) = R.panic .notValidPoint) ∧
    (n < p → ∀ A : eGroup p e, A.y = n → A.x = 0 → b.toNat / 128 = 1 →
      e.decode (xs ++ [b]) = R.ok (.error .sqrtFailed)) ∧
    (n < p → ∀ A : eGroup p e, A.y = n → A.x ≠ 0 ∨ b.toNat / 128 = 0 →
      ∃ A' : eGroup p e, A'.y = n ∧ par A'.x = b.toNat / 128 ∧ (A' = A ∨ A' = -A) ∧
        e.decode (xs ++ [b]) = R.ok (.ok (pt e A'.x A'.y (A'.x * A'.y) 1))) := by
  have hb := decode_body he.params hs xs b hx
  rw [hn] at hb
  have hb2 : b.toNat / 128 < 2 := by have := b.toNat_lt; omega
  simp only at hb
  set g : ZMod p := (((n : ℕ) : ZMod p) ^ 2 - 1) / (val p e.d * ((n : ℕ) : ZMod p) ^ 2 - val p e.a) with hg
  have hz : IsSquare g → (sqrtZ g = 0 ↔ g = 0) := by
    intro hsq
    have := sqrtZ_sq hs hsq
    constructor
    · intro h; rw [← this, h, mul_zero]
    · intro h; rw [h] at this; rw [h]; simpa using this
  refine ⟨fun h => by rw [hb, if_pos h], fun h hno => ?_, fun h A hA hAx hb1 => ?_, fun h A hA hor => ?_⟩
  · rw [hb, if_neg (by omega)]
    have hns : ¬ IsSquare g := by
      rintro ⟨r, hr⟩
      exact hno ⟨⟨r, n, (xsq_iff r n).2 hr.symm⟩, rfl⟩
    have hs0 : sqrtZ g * sqrtZ g ≠ g := sqrtZ_not_sq hns
    have hgne : ∀ r : ZMod p, ¬ (val p e.a * r ^ 2 + (n : ZMod p) ^ 2 = 1 + val p e.d * r ^ 2 * (n : ZMod p) ^ 2) := by
      intro r hr
      exact hns ⟨r, ((xsq_iff r n).1 hr).symm⟩
    have hsz : sqrtZ g ≠ 0 := by
      intro h0
      have hg0 : g ≠ 0 := by intro h0; exact hns (h0 ▸ IsSquare.zero)
      unfold sqrtZ at h0
      rcases hs with hs | hs
      · rw [if_pos hs] at h0
        exact hg0 (pow_eq_zero_iff (by omega) |>.1 h0)
      · rw [if_neg (by omega)] at h0
        have ht : g ^ ((p + 3) / 8) ≠ 0 := pow_ne_zero _ hg0
        have hm : sqrtM1 p ≠ 0 := by
          intro hm
          have := sqrtM1_sq hs
          rw [hm, mul_zero] at this
          exact one_ne_zero (neg_eq_zero.1 this.symm)
        simp only at h0
        split_ifs at h0
        · exact ht h0
        · exact mul_ne_zero ht hm h0
    rw [if_neg (fun h => hsz h.1), newPoint_pt he.params, if_neg (hgne _)]
    rfl
  · rw [hb, if_neg (by omega)]
    have hA' := (xsq_iff A.x A.y).1 A.h
    rw [hA, ← hg, hAx, mul_zero] at hA'
    rw [if_pos ⟨(hz (hA' ▸ IsSquare.zero)).2 hA'.symm, hb1⟩]
  · rw [hb, if_neg (by omega)]
    have hA' := (xsq_iff A.x A.y).1 A.h
    rw [hA, ← hg] at hA'
    have hsq : IsSquare g := ⟨A.x, hA'.symm⟩
    have hsr := sqrtZ_sq hs hsq
    have hAs : A.x = sqrtZ g ∨ A.x = -sqrtZ g := by
      have : (A.x - sqrtZ g) * (A.x + sqrtZ g) = 0 := by linear_combination hA' - hsr
      rcases mul_eq_zero.1 this with h | h
      · exact Or.inl (sub_eq_zero.1 h)
      · exact Or.inr (eq_neg_of_add_eq_zero_left h)
    have hnot : ¬ (sqrtZ g = 0 ∧ b.toNat / 128 = 1) := by
      rintro ⟨h0, h1⟩
      rcases hor with h | h
      · rw [h0, neg_zero, or_self] at hAs; exact h hAs
      · omega
    rw [if_neg hnot, newPoint_pt he.params]
    set x' : ZMod p := if par (sqrtZ g) ≠ b.toNat / 128 then -sqrtZ g else sqrtZ g with hx'
    have hx'sq : x' * x' = g := by rw [hx']; split_ifs <;> linear_combination hsr
    have hx'c := (xsq_iff x' (n : ZMod p)).2 hx'sq
    rw [if_pos hx'c]
    refine ⟨⟨x', n, hx'c⟩, rfl, ?_, ?_, rfl⟩
    · show par x' = _
      rw [hx']
      split_ifs with hp
      · by_cases h0 : sqrtZ g = 0
        · exfalso
          have hpz : par (sqrtZ g) = 0 := by rw [h0]; simp [par]
          rw [hpz] at hp
          exact hnot ⟨h0, by omega⟩
        · rw [par_neg (e := e) h0]; have := par_lt (sqrtZ g); omega
      · push Not at hp; exact hp
    · have hxx : x' = sqrtZ g ∨ x' = -sqrtZ g := by rw [hx']; split_ifs <;> simp
      have hcase : x' = A.x ∨ x' = -A.x := by
        rcases hxx with h1 | h1 <;> rcases hAs with h2 | h2 <;> rw [h1, h2] <;> simp
      rcases hcase with h | h
      · left; ext; exacts [h, hA.symm]
      · right; ext
        · rw [neg_x]; exact h
        · rw [neg_y]; exact hA.symm

omit he in
theorem par_zero : par (0 : ZMod p) = 0 := by simp [par]

end

section
variable (p : ℕ) [Fact p.Prime] (e : Curve)

/-! ## C39 -/

/-- C39. On a complete curve over a field with square roots every point, identity included and in any representative, has
an encoding; it has ⌈(bits(p)+1)/8⌉ bytes, holds `y` in its low bits and the parity of `x` in its top bit, least
significant byte first, and decodes to the same point. The compression flag is immaterial. -/
theorem _root_.Redox.Props.C39_roundtrip [he : ECurve p e] (hs : p % 4 = 3 ∨ p % 8 = 5) (P : Point) (A : eGroup p e)
    (hP : EDenotes p e P A) (c : Bool) :
    ∃ bs Q, P.encode c = R.ok bs ∧ bs.length = (Big.bits p + 8) / 8 ∧
      leValue bs = A.y.val + 2 ^ (8 * bs.length - 1) * (A.x.val % 2) ∧
      e.decode bs = R.ok (.ok Q) ∧ EDenotes p e Q A ∧ P.eq Q = R.ok true ∧ e.isOnCurve Q = R.ok true := by
  obtain ⟨x, y, t, z, rfl, hz, rfl, rfl, rfl⟩ := denotes_iff.1 hP
  obtain ⟨xs, b, henc, hlen, hval, hpar⟩ := ELink.encode_pt he.params (A.x * z) (A.y * z) (A.x * A.y * z) z c
  have hu : A.x * z * z⁻¹ = A.x := by field_simp
  have hv : A.y * z * z⁻¹ = A.y := by field_simp
  rw [hv] at hval
  rw [hu] at hpar
  have hc : ((A.y.val : ℕ) : ZMod p) = A.y := ZMod.natCast_zmod_val A.y
  have hlt : A.y.val < p := ZMod.val_lt A.y
  obtain ⟨A', hA'y, hA'p, hA', hd⟩ := (decode_spec (e := e) hs xs b hlen _ hval).2.2.2 hlt A hc.symm (by
    by_cases h0 : A.x = 0
    · right; rw [hpar, h0, par_zero]
    · exact Or.inl h0)
  have hAA : A' = A := by
    rcases hA' with h | h
    · exact h
    · by_cases h0 : A.x = 0
      · rw [h]; ext
        · rw [neg_x, h0, neg_zero]
        · rw [neg_y]
      · exfalso
        rw [h, neg_x, par_neg (e := e) h0, hpar] at hA'p
        have := par_lt A.x
        omega
  subst hAA
  have hQ := denotes_affine A'
  refine ⟨_, _, henc, ?_, ?_, hd, hQ, ?_, ?_⟩
  · rw [List.length_append, List.length_singleton, hlen]; rfl
  · obtain ⟨h1, h2⟩ := split_bits xs b
    rw [List.length_append, List.length_singleton]
    rw [← Nat.mod_add_div (leValue (xs ++ [b])) (2 ^ (8 * (xs.length + 1) - 1)), h1, h2, hval, hpar]
    rfl
  · rw [ELink.eq_of_denotes _ _ _ _ hP hQ]; simp
  · rw [isOnCurve_pt (ea he.params) (ed he.params), decide_eq_true]
    obtain ⟨_, _, _, _, h, hr⟩ := denotes_iff.1 hQ
    obtain ⟨-, rfl, rfl, rfl, rfl⟩ := pt_inj.1 h
    exact hr.onCurve

/-- C39: two points (any representatives, any flags) have the same encoding exactly when they are the same point. -/
theorem _root_.Redox.Props.C39_injective [he : ECurve p e] (hs : p % 4 = 3 ∨ p % 8 = 5) (P Q : Point) (A B : eGroup p e)
    (hP : EDenotes p e P A) (hQ : EDenotes p e Q B) (c c' : Bool) : P.encode c = Q.encode c' ↔ A = B := by
  obtain ⟨bs, P', e1, l1, v1, d1, dP', _⟩ := C39_roundtrip p e hs P A hP c
  obtain ⟨bs', Q', e2, l2, v2, d2, dQ', _⟩ := C39_roundtrip p e hs Q B hQ c'
  rw [e1, e2, R.ok.injEq]
  constructor
  · rintro rfl
    rw [d1, R.ok.injEq, Except.ok.injEq] at d2
    subst d2
    obtain ⟨x, y, t, z, rfl, hA⟩ := denotes_iff.1 dP'
    obtain ⟨x', y', t', z', h, hB⟩ := denotes_iff.1 dQ'
    obtain ⟨-, rfl, rfl, rfl, rfl⟩ := pt_inj.1 h
    exact hA.unique hB
  · rintro rfl
    apply Big.fromBytesLE_inj (by rw [l1, l2])
    rw [← leValue_eq, ← leValue_eq, v1, v2, l1, l2]

/-- C39: the decoder accepts no second encoding of a point: what decodes re-encodes to the same bytes. -/
theorem _root_.Redox.Props.C39_canonical [he : ECurve p e] (hs : p % 4 = 3 ∨ p % 8 = 5) (bs : List Byte) (P : Point)
    (h : e.decode bs = R.ok (.ok P)) (c : Bool) : P.encode c = R.ok bs := by
  by_cases hl : bs.length = encSize p
  · obtain ⟨xs, b, rfl, hx⟩ := snoc_of_length hl one_le_encSize
    obtain ⟨D1, D2, D3, D4⟩ := decode_spec (e := e) hs xs b hx _ rfl
    obtain ⟨s1, s2⟩ := split_bits xs b
    set n := Big.fromBytesLE xs + 256 ^ xs.length * (b.toNat % 128) with hn
    by_cases hnp : p ≤ n
    · rw [D1 hnp] at h; cases h
    by_cases hex : ∃ A : eGroup p e, A.y = n
    · obtain ⟨A, hA⟩ := hex
      have hb2 : b.toNat / 128 < 2 := by have := b.toNat_lt; omega
      by_cases hbad : A.x = 0 ∧ b.toNat / 128 = 1
      · rw [D3 (by omega) A hA hbad.1 hbad.2] at h; cases h
      · obtain ⟨A', hy, hp, -, hd⟩ := D4 (by omega) A hA (by
          by_cases h0 : A.x = 0
          · right; have : b.toNat / 128 ≠ 1 := fun h1 => hbad ⟨h0, h1⟩
            omega
          · exact Or.inl h0)
        rw [hd, R.ok.injEq, Except.ok.injEq] at h
        subst h
        obtain ⟨bs', Q, henc, hl', hv, -⟩ := C39_roundtrip p e hs _ A' (denotes_affine A') c
        rw [henc, R.ok.injEq]
        have hl'' : bs'.length = (xs ++ [b]).length := by rw [hl', hl]; rfl
        apply Big.fromBytesLE_inj hl''
        rw [← leValue_eq, ← leValue_eq, hv, hl'', List.length_append, List.length_singleton,
          ← Nat.mod_add_div (leValue (xs ++ [b])) (2 ^ (8 * (xs.length + 1) - 1)), s1, s2, ← hp, hy,
          ZMod.val_natCast, Nat.mod_eq_of_lt (by omega)]
        rfl
    · rw [D2 (by omega) hex] at h; cases h
  · rw [ELink.decode_wrongSize he.params bs hl] at h; cases h

/-! ## C40 -/

/-- C40: what `decode` accepts is a point of the curve, on every curve and for every byte string; a string of the wrong
length is rejected with an error. Partial: on other strings `decode` may panic, see `C40_panics_iff` and `C40_refuted`. -/
theorem _root_.Redox.Props.C40_decode_partial (he : EParams p e) (bs : List Byte) :
    (∀ P, e.decode bs = R.ok (.ok P) → e.isOnCurve P = R.ok true ∧ ∃ A, EDenotes p e P A) ∧
    (bs.length ≠ (Big.bits p + 8) / 8 → ∃ err, e.decode bs = R.ok (.error err)) ∧
    (bs.length = (Big.bits p + 8) / 8 → p ≤ leValue bs % 2 ^ (8 * bs.length - 1) → p % 4 = 3 ∨ p % 8 = 5 →
      ∃ err, e.decode bs = R.ok (.error err)) := by
  refine ⟨fun P h => ?_, fun h => ⟨_, ELink.decode_wrongSize he bs h⟩, fun hl hy hs => ?_⟩
  · obtain ⟨x, y, h⟩ := Ed.decode_newPoint he h
    have hA := newPoint_denotes he h
    refine ⟨?_, hA⟩
    obtain ⟨A, hA⟩ := hA
    obtain ⟨x, y, t, z, rfl, hr⟩ := denotes_iff.1 hA
    rw [isOnCurve_pt (ea he) (ed he), decide_eq_true hr.onCurve]
  · obtain ⟨xs, b, rfl, hx⟩ := snoc_of_length (n := encSize p) hl one_le_encSize
    rw [List.length_append, List.length_singleton, (split_bits xs b).1] at hy
    exact ⟨_, by rw [ELink.decode_body he hs xs b hx, if_pos hy]⟩

/-- C40, exact: on a complete curve over a field with square roots, `decode` panics precisely on the strings of the right
length whose `y` is reduced but is not the ordinate of any point. -/
theorem _root_.Redox.Props.C40_panics_iff [he : ECurve p e] (hs : p % 4 = 3 ∨ p % 8 = 5) (bs : List Byte) :
    (∃ why, e.decode bs = R.panic why) ↔
      bs.length = (Big.bits p + 8) / 8 ∧ leValue bs % 2 ^ (8 * bs.length - 1) < p ∧
      ¬ ∃ A : eGroup p e, A.y = (leValue bs % 2 ^ (8 * bs.length - 1) : ℕ) := by
  by_cases hl : bs.length = encSize p
  · obtain ⟨xs, b, rfl, hx⟩ := snoc_of_length hl one_le_encSize
    obtain ⟨D1, D2, D3, D4⟩ := decode_spec (e := e) hs xs b hx _ rfl
    rw [List.length_append, List.length_singleton, (split_bits xs b).1]
    set n := Big.fromBytesLE xs + 256 ^ xs.length * (b.toNat % 128) with hn
    constructor
    · rintro ⟨why, h⟩
      refine ⟨hx, ?_, ?_⟩
      · by_contra hnp
        rw [D1 (by omega)] at h; cases h
      · rintro ⟨A, hA⟩
        have hnp : n < p := by
          by_contra hnp
          rw [D1 (by omega)] at h; cases h
        have hb2 : b.toNat / 128 < 2 := by have := b.toNat_lt; omega
        by_cases hbad : A.x = 0 ∧ b.toNat / 128 = 1
        · rw [D3 hnp A hA hbad.1 hbad.2] at h; cases h
        · obtain ⟨A', -, -, -, hd⟩ := D4 hnp A hA (by
            by_cases h0 : A.x = 0
            · right; have : b.toNat / 128 ≠ 1 := fun h1 => hbad ⟨h0, h1⟩
              omega
            · exact Or.inl h0)
          rw [hd] at h; cases h
    · rintro ⟨-, h1, h2⟩
      exact ⟨_, D2 h1 h2⟩
  · constructor
    · rintro ⟨why, h⟩
      rw [ELink.decode_wrongSize he.params bs hl] at h; cases h
    · rintro ⟨h, -⟩; exact absurd h hl

end

/-- `x² + y² = 1 + 3x²y²` over GF(7): four points, `y = 2` is not the ordinate of any. Used in the refutation only. -/
def toyE2 : Curve := ⟨⟨7⟩, ⟨1, ⟨7⟩⟩, ⟨3, ⟨7⟩⟩, 4, ⟨1, ⟨7⟩⟩, ⟨0, ⟨7⟩⟩, 1⟩

/-- C40 is refuted: on a complete curve a one-byte string makes `decode` panic instead of returning an error. -/
theorem _root_.Redox.Props.C40_refuted : ECurve 7 toyE2 ∧ toyE2.decode [2] = R.panic .notValidPoint := by
  refine ⟨⟨⟨by norm_num, by norm_num, rfl, ⟨rfl, by decide, by decide⟩, ⟨rfl, by decide, by decide⟩⟩, by decide,
    ⟨1, by decide⟩, ?_⟩, by decide +kernel⟩
  have h : ∀ r : ZMod 7, val 7 toyE2.d ≠ r * r := by decide
  rintro ⟨r, hr⟩; exact h r hr

/-- The hypotheses are met: the generator of the toy curve in a representative with `z = 2`, the identity, and the three
kinds of rejected strings. -/
example : EDenotes 7 toyE ⟨toyE, ⟨⟨2, ⟨7⟩⟩, ⟨4, ⟨7⟩⟩, ⟨4, ⟨7⟩⟩, ⟨2, ⟨7⟩⟩⟩⟩ ⟨1, 2, by decide⟩ ∧
    (Point.mk toyE ⟨⟨2, ⟨7⟩⟩, ⟨4, ⟨7⟩⟩, ⟨4, ⟨7⟩⟩, ⟨2, ⟨7⟩⟩⟩).encode true = R.ok [130] ∧
    (do (← toyE.identity).encode false) = R.ok [1] ∧ toyE.decode [129] = R.ok (.error .sqrtFailed) ∧
    toyE.decode [7] = R.ok (.error .invalidYChosen) ∧ toyE.decode [1, 0] = R.ok (.error .wrongSize) := by
  refine ⟨by unfold EDenotes Canon; decide, by decide +kernel, by decide +kernel, by decide +kernel, by decide +kernel,
    by decide +kernel⟩

end Redox.Props.Ed
