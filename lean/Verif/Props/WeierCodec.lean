import Verif.Props.WeierPoints

/-!
# C28–C30: encoding and decoding of Weierstrass points
-/

set_option linter.unusedSectionVars false

namespace Redox

open Spec

section
variable {p : ℕ} [Fact p.Prime]

/-- The tag byte of a `y` coordinate. -/
def signTag (v : ZMod p) : Byte := UInt8.ofNat (signBit (el v).sgn0 + 2)

theorem signTag_eq (v : ZMod p) : signTag v = if v.val % 2 = 0 then 2 else 3 := by
  rw [signTag, sgn0_el]
  split_ifs <;> rfl

theorem val_neg_parity (hodd : p % 2 = 1) {v : ZMod p} (hv : v ≠ 0) : (-v).val % 2 ≠ v.val % 2 := by
  haveI : NeZero v := ⟨hv⟩
  rw [ZMod.val_neg_of_ne_zero]
  have := ZMod.val_lt v
  omega

theorem signTag_neg (hodd : p % 2 = 1) {v : ZMod p} (hv : v ≠ 0) : signTag (-v) ≠ signTag v := by
  have := val_neg_parity hodd hv
  rw [signTag_eq, signTag_eq]
  split_ifs with h1 h2 h2
  · omega
  · decide
  · decide
  · omega

theorem signTag_mem (v : ZMod p) : signTag v = 2 ∨ signTag v = 3 := by
  rw [signTag_eq]; split_ifs <;> simp

theorem cast_val_nat (v : ZMod p) : ((v.val : ℕ) : ZMod p) = v := ZMod.natCast_zmod_val v

theorem toBytesBE_el (v : ZMod p) : (el v).toBytesBE = R.ok (Big.fixedBE ((Big.bits p + 7) / 8) v.val) := by
  have hp := (Fact.out : p.Prime)
  rw [Props.toBytesBE_canon p hp.one_le _ (canon_el v)]
  congr 2
  rw [el_n, cast_eq_val, Int.toNat_natCast]

theorem val_lt_size (v : ZMod p) : v.val < 256 ^ ((Big.bits p + 7) / 8) :=
  lt_trans (ZMod.val_lt v) (Big.lt_256_pow_size p)

end

namespace Props

open Weierstrass WLink RCB

section
variable {p : ℕ} [Fact p.Prime] {e : Curve} (he : WCurve p e)
include he

theorem size_eq : e.f.sizeBytes = (Big.bits p + 7) / 8 := by rw [he.field]; rfl

theorem odd_p : p % 2 = 1 := he.prime.eq_two_or_odd.resolve_left he.odd

theorem fixedBE_len (v : ZMod p) : (Big.fixedBE ((Big.bits p + 7) / 8) v.val).length = e.f.sizeBytes := by
  rw [size_eq he]; exact Big.fixedBE_length (Big.one_le_size he.prime.ne_zero) (val_lt_size v)

/-- `encode` in closed form. -/
theorem encode_pt (x y z : ZMod p) (c : Bool) :
    (pt e x y z).encode c = R.ok (if c then signTag (y * z⁻¹) :: Big.fixedBE ((Big.bits p + 7) / 8) (x * z⁻¹).val
      else 4 :: (Big.fixedBE ((Big.bits p + 7) / 8) (x * z⁻¹).val ++ Big.fixedBE ((Big.bits p + 7) / 8) (y * z⁻¹).val)) := by
  rw [Point.encode, normalize_pt he, R.ok_bind, isZero_pt]
  have h1 : decide (x * z⁻¹ = 0 ∧ y * z⁻¹ ≠ 0 ∧ (1 : ZMod p) = 0) = false := by simp
  rw [h1]
  simp only [Bool.false_eq_true, if_false]
  have hx : (pt e (x * z⁻¹) (y * z⁻¹) 1).c.x = el (x * z⁻¹) := rfl
  have hy : (pt e (x * z⁻¹) (y * z⁻¹) 1).c.y = el (y * z⁻¹) := rfl
  rw [hx, hy, toBytesBE_el, toBytesBE_el]
  cases c <;> rfl

theorem fromBE_fixed (v : ZMod p) : Big.fromBytesBE (Big.fixedBE ((Big.bits p + 7) / 8) v.val) = v.val :=
  Big.fromBytesBE_fixedBE _ _

/-- Uncompressed decoding in closed form. -/
theorem decode_uncompressed (xs ys : List Byte) (hx : xs.length = e.f.sizeBytes) (hy : ys.length = e.f.sizeBytes)
    (hxp : Big.fromBytesBE xs < p) (hyp : Big.fromBytesBE ys < p) :
    e.decode (4 :: (xs ++ ys)) =
      if (Big.fromBytesBE ys : ZMod p) ^ 2 =
        (Big.fromBytesBE xs : ZMod p) ^ 3 + val p e.a * (Big.fromBytesBE xs : ZMod p) + val p e.b
      then R.ok (.ok (pt e (Big.fromBytesBE xs : ZMod p) (Big.fromBytesBE ys : ZMod p) 1))
      else R.panic .notValidPoint := by
  have h1 := one_le_sizeBytes he
  have hne : ys ≠ [] := by rintro rfl; simp at hy; omega
  rw [decode_body he 4 xs ys hx (Or.inr hy), if_neg (by omega), if_neg (by decide), if_pos rfl, if_neg hne,
    if_neg (by omega), newPoint_pt he]
  split_ifs <;> rfl

/-- Compressed decoding in closed form. -/
theorem decode_compressed (hs : SqrtOK p) (t : Byte) (ht : t = 2 ∨ t = 3) (xs : List Byte)
    (hx : xs.length = e.f.sizeBytes) (hxp : Big.fromBytesBE xs < p) :
    (¬ IsSquare ((Big.fromBytesBE xs : ZMod p) ^ 3 + val p e.a * (Big.fromBytesBE xs : ZMod p) + val p e.b) →
      e.decode (t :: xs) = R.panic .notValidPoint) ∧
    (IsSquare ((Big.fromBytesBE xs : ZMod p) ^ 3 + val p e.a * (Big.fromBytesBE xs : ZMod p) + val p e.b) →
      ∃ y : ZMod p, y ^ 2 = (Big.fromBytesBE xs : ZMod p) ^ 3 + val p e.a * (Big.fromBytesBE xs : ZMod p) + val p e.b ∧
        (y = 0 ∨ signTag y = t) ∧ e.decode (t :: xs) = R.ok (.ok (pt e (Big.fromBytesBE xs : ZMod p) y 1))) := by
  have h0 : t ≠ 0 := by rcases ht with rfl | rfl <;> decide
  have h4 : t ≠ 4 := by rcases ht with rfl | rfl <;> decide
  have hb := decode_body he t xs [] hx (Or.inl rfl)
  rw [List.append_nil, if_neg (by omega), if_neg h0, if_neg h4, if_pos ht, if_neg (by simp)] at hb
  set u : ZMod p := (Big.fromBytesBE xs : ZMod p) with hu
  set g : ZMod p := u ^ 3 + val p e.a * u + val p e.b with hg
  simp only [sqrt_el hs, R.ok_bind, neg_el] at hb
  have hb' : e.decode (t :: xs) = (do return .ok (← e.newPoint (el u)
      (el (if t ≠ signTag (sqrtZ g) then -sqrtZ g else sqrtZ g)))) := by
    rw [hb, signTag]; split_ifs <;> rfl
  rw [hb', newPoint_pt he]
  have hsq : (if t ≠ signTag (sqrtZ g) then -sqrtZ g else sqrtZ g) ^ 2 = sqrtZ g * sqrtZ g := by
    split_ifs <;> ring
  rw [hsq, ← hg]
  constructor
  · intro hns
    rw [if_neg (sqrtZ_not_sq hns)]; rfl
  · intro hsq'
    refine ⟨_, ?_, ?_, by rw [if_pos (sqrtZ_sq hs hsq')]; rfl⟩
    · rw [hsq, sqrtZ_sq hs hsq']
    · by_cases hz : sqrtZ g = 0
      · left; rw [hz]; simp
      · right
        by_cases htt : t = signTag (sqrtZ g)
        · rw [if_neg (by simpa using htt)]; exact htt.symm
        · rw [if_pos htt]
          have h1 := signTag_neg (odd_p he) hz
          rcases ht with rfl | rfl <;> rcases signTag_mem (sqrtZ g) with h2 | h2 <;>
            rcases signTag_mem (-sqrtZ g) with h3 | h3 <;> simp_all

end

section
variable (p : ℕ) [Fact p.Prime] (e : Curve)

/-! ## C28 -/

/-- C28. Every affine point (any representative) of a curve whose field has square roots round-trips through both formats,
with the stated lengths. Partial: not the identity, see `C28_refuted_identity`. -/
theorem C28_roundtrip_partial (he : WCurve p e) (hs : p % 4 = 3 ∨ p % 8 = 5) (P : Point) (A : (wGroup p e).Point)
    (hP : WDenotes p e P A) (hA : A ≠ 0) (c : Bool) :
    ∃ bs Q, P.encode c = R.ok bs ∧ bs.length = (if c then e.f.sizeBytes + 1 else 2 * e.f.sizeBytes + 1) ∧
      e.decode bs = R.ok (.ok Q) ∧ WDenotes p e Q A ∧ P.eq Q = R.ok true ∧ e.isOnCurve Q = R.ok true := by
  obtain ⟨x, y, z, rfl, hr⟩ := denotes_iff.1 hP
  rcases A with _ | ⟨u, v, hn⟩
  · exact absurd rfl hA
  have heq := ((nonsingular_iff _ _ u v).1 hn).1
  obtain ⟨hz, rfl, rfl⟩ := hr
  have hu : u * z * z⁻¹ = u := by field_simp
  have hv : v * z * z⁻¹ = v := by field_simp
  have hQ : WDenotes p e (pt e u v 1) (.some u v hn) := denotes_iff.2 ⟨_, _, _, rfl, one_ne_zero, by ring, by ring⟩
  have hon : e.isOnCurve (pt e u v 1) = R.ok true := by
    rw [isOnCurve_pt (ea he) (eb he), decide_eq_true (by linear_combination -heq)]
  have heq' : (pt e (u * z) (v * z) z).eq (pt e u v 1) = R.ok true := by
    rw [eq_of_denotes p e _ _ _ _ hP hQ]; simp
  refine ⟨_, pt e u v 1, encode_pt he _ _ _ c, ?_, ?_, hQ, heq', hon⟩
  · rw [hu, hv]
    cases c
    · simp [fixedBE_len he]; omega
    · simp [fixedBE_len he]
  · rw [hu, hv]
    cases c with
    | false =>
      simp only [Bool.false_eq_true, if_false]
      rw [decode_uncompressed he _ _ (fixedBE_len he u) (fixedBE_len he v) (by rw [fromBE_fixed he]; exact ZMod.val_lt u)
        (by rw [fromBE_fixed he]; exact ZMod.val_lt v)]
      rw [fromBE_fixed he, fromBE_fixed he, cast_val_nat, cast_val_nat, if_pos heq]
    | true =>
      simp only [if_true]
      obtain ⟨y', hy', htag, hd⟩ := (decode_compressed he hs (signTag v) (signTag_mem v) _ (fixedBE_len he u)
        (by rw [fromBE_fixed he]; exact ZMod.val_lt u)).2 (by
          rw [fromBE_fixed he, cast_val_nat]; exact ⟨v, by rw [← heq]; ring⟩)
      rw [hd]
      rw [fromBE_fixed he, cast_val_nat] at hy' ⊢
      have : y' = v := by
        rcases sq_eq_sq_iff_eq_or_eq_neg.1 (hy'.trans heq.symm) with h | h
        · exact h
        · by_cases hv0 : v = 0
          · rw [h, hv0, neg_zero]
          · rcases htag with h0 | h0
            · rw [h, neg_eq_zero] at h0; exact absurd h0 hv0
            · rw [h] at h0; exact absurd h0 (signTag_neg (odd_p he) hv0)
      rw [this]

/-- C28 is refuted at the identity on every curve with `b ≠ 0`. Its encodings are `04 00…00` and `02 00…00`, never the
single byte `00`. Decoding the uncompressed one panics. Decoding the compressed one panics when `b` is not a square, and
returns a different, finite point when it is. Decoding the single byte `00` panics. -/
theorem C28_refuted_identity (he : WCurve p e) (hs : p % 4 = 3 ∨ p % 8 = 5) (hb : val p e.b ≠ 0) :
    ∃ I, e.identity = R.ok I ∧
      I.encode false = R.ok (4 :: List.replicate (2 * e.f.sizeBytes) 0) ∧
      I.encode true = R.ok (2 :: List.replicate e.f.sizeBytes 0) ∧
      e.decode (4 :: List.replicate (2 * e.f.sizeBytes) 0) = R.panic .notValidPoint ∧
      (¬ IsSquare (val p e.b) → e.decode (2 :: List.replicate e.f.sizeBytes 0) = R.panic .notValidPoint) ∧
      (IsSquare (val p e.b) → ∃ Q, e.decode (2 :: List.replicate e.f.sizeBytes 0) = R.ok (.ok Q) ∧ Q.isZero = false ∧
        I.eq Q = R.ok false) ∧
      e.decode [0] = R.panic .indexOutOfRange := by
  have hrep : Big.fixedBE ((Big.bits p + 7) / 8) (0 : ZMod p).val = List.replicate e.f.sizeBytes 0 := by
    have h1 := one_le_sizeBytes he
    rw [← size_eq he, ZMod.val_zero]
    apply Big.fromBytesBE_inj
    · rw [Big.fixedBE_length h1 (by positivity), List.length_replicate]
    · rw [Big.fromBytesBE_fixedBE, Big.fromBytesBE, List.reverse_replicate, Big.fromBytesLE_replicate_zero]
  have h0v : Big.fromBytesBE (List.replicate e.f.sizeBytes 0) = 0 := by
    rw [Big.fromBytesBE, List.reverse_replicate, Big.fromBytesLE_replicate_zero]
  have hp := he.prime.pos
  have htag : signTag (0 : ZMod p) = 2 := by rw [signTag_eq]; simp
  have hrep2 : List.replicate (2 * e.f.sizeBytes) (0 : Byte) =
      List.replicate e.f.sizeBytes 0 ++ List.replicate e.f.sizeBytes 0 := by
    rw [List.replicate_append_replicate]; congr 1; omega
  have hlen : (List.replicate e.f.sizeBytes (0 : Byte)).length = e.f.sizeBytes := List.length_replicate
  obtain ⟨hc1, hc2⟩ := decode_compressed he hs 2 (Or.inl rfl) (List.replicate e.f.sizeBytes 0) hlen (by rw [h0v]; exact hp)
  rw [h0v] at hc1 hc2
  simp only [Nat.cast_zero, ne_eq, OfNat.ofNat_ne_zero, not_false_eq_true, zero_pow, mul_zero, zero_add] at hc1 hc2
  refine ⟨_, identity_pt he, ?_, ?_, ?_, hc1, ?_, decode_one he 0⟩
  · rw [encode_pt he, zero_mul, inv_zero, mul_zero, hrep, hrep2]; rfl
  · rw [encode_pt he, zero_mul, inv_zero, mul_zero, hrep, htag]; rfl
  · rw [hrep2, decode_uncompressed he _ _ hlen hlen (by rw [h0v]; exact hp) (by rw [h0v]; exact hp), h0v, if_neg]
    simpa using Ne.symm hb
  · intro hsq
    obtain ⟨y, hy, -, hd⟩ := hc2 hsq
    refine ⟨_, hd, by simp [isZero_pt], ?_⟩
    rw [eq_pt]; simp

example : WCurve 7 toy7 ∧ (7 % 4 = 3 ∨ 7 % 8 = 5) ∧ val 7 toy7.b ≠ 0 ∧ IsSquare (val 7 toy7.b) ∧
    (do (← toy7.getGenerator).encode true) = R.ok [3, 0] ∧
    (do (← toy7.getGenerator).encode false) = R.ok [4, 0, 1] :=
  ⟨toy7_curve, by decide, by decide, ⟨1, by decide⟩, by decide +kernel, by decide +kernel⟩

/-! ## C29 -/

/-- C29, what holds: a decoded point is on the curve and finite; wrong lengths, unknown tags, coordinates not below `p` and
a zero tag are rejected with an error. -/
theorem C29_decode_partial (he : WCurve p e) (buf : List Byte) :
    (∀ P, e.decode buf = R.ok (.ok P) → P.e = e ∧ e.isOnCurve P = R.ok true ∧ ∃ A, A ≠ 0 ∧ WDenotes p e P A) ∧
    (buf.length ≠ 1 → buf.length ≠ e.f.sizeBytes + 1 → buf.length ≠ 2 * e.f.sizeBytes + 1 →
      e.decode buf = R.ok (.error .wrongSize)) ∧
    (∀ t xs ys, buf = t :: (xs ++ ys) → xs.length = e.f.sizeBytes → (ys = [] ∨ ys.length = e.f.sizeBytes) →
      (p ≤ beValue xs ∨ (t = 4 ∧ p ≤ beValue ys) ∨ t ∉ [2, 3, 4] ∨ (t = 4 ∧ ys = []) ∨ (t ∈ [2, 3] ∧ ys ≠ [])) →
      ∃ err, e.decode buf = R.ok (.error err)) := by
  refine ⟨fun P h => ?_, fun h1 h2 h3 => decode_wrongSize he buf h1 h2 h3, ?_⟩
  · obtain ⟨x, y, h⟩ := decode_newPoint he h
    rw [newPoint_pt he] at h
    split_ifs at h with h0
    rw [R.ok.injEq] at h
    subst h
    refine ⟨rfl, ?_, ?_⟩
    · rw [isOnCurve_pt (ea he) (eb he), decide_eq_true (by linear_combination -h0)]
    · obtain ⟨A, hA⟩ := exists_rep (x := x) (y := y) (z := 1) he.odd he.nonsingular (by linear_combination -h0)
        (Or.inr one_ne_zero)
      refine ⟨A, ?_, denotes_iff.2 ⟨_, _, _, rfl, hA⟩⟩
      rintro rfl
      exact one_ne_zero hA.2.2
  · rintro t xs ys rfl hx hy h
    have h1 := one_le_sizeBytes he
    rw [decode_body he t xs ys hx hy]
    rw [beValue_eq, beValue_eq] at h
    simp only [List.mem_cons, List.not_mem_nil, or_false, not_or] at h
    split_ifs with g1 g2 g3 g4 g5 g6 g7
    all_goals first
      | exact ⟨_, rfl⟩
      | (exfalso; subst_vars; simp_all; done)
      | (exfalso; subst_vars; simp_all; omega)

/-- C29, exact panic condition: on a field with square roots, `decode` panics exactly on one-byte inputs, on well-formed
uncompressed inputs that are not on the curve, and on well-formed compressed inputs whose `x` has no `y`. -/
theorem C29_panics_iff (he : WCurve p e) (hs : p % 4 = 3 ∨ p % 8 = 5) (buf : List Byte) :
    (∃ why, e.decode buf = R.panic why) ↔
      buf.length = 1 ∨
      (∃ xs ys, buf = 4 :: (xs ++ ys) ∧ xs.length = e.f.sizeBytes ∧ ys.length = e.f.sizeBytes ∧ beValue xs < p ∧
        beValue ys < p ∧
        (beValue ys : ZMod p) ^ 2 ≠ (beValue xs : ZMod p) ^ 3 + val p e.a * (beValue xs : ZMod p) + val p e.b) ∨
      (∃ t xs, buf = t :: xs ∧ t ∈ [2, 3] ∧ xs.length = e.f.sizeBytes ∧ beValue xs < p ∧
        ¬ IsSquare ((beValue xs : ZMod p) ^ 3 + val p e.a * (beValue xs : ZMod p) + val p e.b)) := by
  have h1 := one_le_sizeBytes he
  simp only [beValue_eq]
  constructor
  · rintro ⟨why, h⟩
    by_cases hl1 : buf.length = 1
    · exact Or.inl hl1
    right
    by_cases hl : buf.length = e.f.sizeBytes + 1 ∨ buf.length = 2 * e.f.sizeBytes + 1
    · obtain ⟨t, xs, ys, rfl, hx, hy⟩ := split_buf hl
      by_cases hxp : p ≤ Big.fromBytesBE xs
      · rw [decode_body he t xs ys hx hy, if_pos hxp] at h; cases h
      by_cases h0 : t = 0
      · rw [decode_body he t xs ys hx hy, if_neg hxp, if_pos h0] at h; cases h
      by_cases h4 : t = 4
      · subst h4
        left
        by_cases hye : ys = []
        · rw [decode_body he _ xs ys hx hy, if_neg hxp, if_neg h0, if_pos rfl, if_pos hye] at h; cases h
        have hyl := hy.resolve_left hye
        by_cases hyp : p ≤ Big.fromBytesBE ys
        · rw [decode_body he _ xs ys hx hy, if_neg hxp, if_neg h0, if_pos rfl, if_neg hye, if_pos hyp] at h; cases h
        refine ⟨xs, ys, rfl, hx, hyl, by omega, by omega, fun heq => ?_⟩
        rw [decode_uncompressed he xs ys hx hyl (by omega) (by omega), if_pos heq] at h; cases h
      by_cases ht : t = 2 ∨ t = 3
      · right
        by_cases hye : ys = []
        · subst hye
          refine ⟨t, xs, by simp, by simpa using ht, hx, by omega, fun hsq => ?_⟩
          obtain ⟨y, -, -, hd⟩ := (decode_compressed he hs t ht xs hx (by omega)).2 hsq
          rw [List.append_nil, hd] at h; cases h
        · rw [decode_body he t xs ys hx hy, if_neg hxp, if_neg h0, if_neg h4, if_pos ht, if_pos hye] at h; cases h
      · rw [decode_body he t xs ys hx hy, if_neg hxp, if_neg h0, if_neg h4, if_neg ht] at h; cases h
    · rw [decode_wrongSize he buf hl1 (by tauto) (by tauto)] at h; cases h
  · rintro (h | ⟨xs, ys, rfl, hx, hy, hxp, hyp, h⟩ | ⟨t, xs, rfl, ht, hx, hxp, h⟩)
    · obtain ⟨t, rfl⟩ := List.length_eq_one_iff.1 h
      exact ⟨_, decode_one he t⟩
    · exact ⟨_, by rw [decode_uncompressed he xs ys hx hy hxp hyp, if_neg h]⟩
    · exact ⟨_, (decode_compressed he hs t (by simpa using ht) xs hx hxp).1 h⟩

/-- C29 is refuted: `decode` panics on some byte strings, e.g. on the encoding `00` of the identity, on an uncompressed
point off the curve and on a compressed `x` without `y` (toy curve; by `C29_panics_iff` likewise on every curve). -/
theorem C29_refuted : toy7.decode [0] = R.panic .indexOutOfRange ∧ toy7.decode [4, 2, 4] = R.panic .notValidPoint ∧
    toy7.decode [2, 1] = R.panic .notValidPoint := by
  refine ⟨?_, ?_, ?_⟩ <;> decide +kernel

/-! ## C30 -/

/-- C30, encoder: equal points have identical encodings whatever the representatives, in both formats; different affine
points have different encodings in the same format. -/
theorem C30_encode (he : WCurve p e) (c : Bool) (P Q : Point) (A B : (wGroup p e).Point)
    (hP : WDenotes p e P A) (hQ : WDenotes p e Q B) :
    (A = B → P.encode c = Q.encode c) ∧ (A ≠ 0 → B ≠ 0 → P.encode c = Q.encode c → A = B) := by
  obtain ⟨x, y, z, rfl, hA⟩ := denotes_iff.1 hP
  obtain ⟨x', y', z', rfl, hB⟩ := denotes_iff.1 hQ
  rw [encode_pt he, encode_pt he]
  rcases A with _ | ⟨u, v, hn⟩ <;> rcases B with _ | ⟨u', v', hn'⟩
  · obtain ⟨rfl, -, rfl⟩ := hA
    obtain ⟨rfl, -, rfl⟩ := hB
    simp
  · exact ⟨fun h => (by cases h), fun h => absurd rfl h⟩
  · exact ⟨fun h => (by cases h), fun _ h => absurd rfl h⟩
  · obtain ⟨hz, rfl, rfl⟩ := hA
    obtain ⟨hz', rfl, rfl⟩ := hB
    have hu : u * z * z⁻¹ = u := by field_simp
    have hv : v * z * z⁻¹ = v := by field_simp
    have hu' : u' * z' * z'⁻¹ = u' := by field_simp
    have hv' : v' * z' * z'⁻¹ = v' := by field_simp
    rw [hu, hv, hu', hv']
    rw [WeierstrassCurve.Affine.Point.some.injEq]
    refine ⟨by rintro ⟨rfl, rfl⟩; rfl, fun _ _ h => ?_⟩
    have inj : ∀ {a b : ZMod p}, Big.fixedBE ((Big.bits p + 7) / 8) a.val = Big.fixedBE ((Big.bits p + 7) / 8) b.val → a = b :=
      fun h => ZMod.val_injective p (Big.fixedBE_inj h)
    cases c with
    | false =>
      simp only [Bool.false_eq_true, if_false, R.ok.injEq, List.cons.injEq, true_and] at h
      obtain ⟨h1, h2⟩ := List.append_inj h (by rw [fixedBE_len he, fixedBE_len he])
      exact ⟨inj h1, inj h2⟩
    | true =>
      simp only [if_true, R.ok.injEq, List.cons.injEq] at h
      obtain ⟨h1, h2⟩ := h
      have huu := inj h2
      subst huu
      refine ⟨rfl, ?_⟩
      have e1 := ((nonsingular_iff _ _ u v).1 hn).1
      have e2 := ((nonsingular_iff _ _ u v').1 hn').1
      rcases sq_eq_sq_iff_eq_or_eq_neg.1 (e1.trans e2.symm) with h | h
      · exact h
      · by_cases hv0 : v' = 0
        · rw [h, hv0, neg_zero]
        · rw [h] at h1; exact absurd h1 (signTag_neg (odd_p he) hv0)

/-- C30, decoder: on a curve without points of order two, a byte string that decodes is the encoding of the decoded point
in the format given by its length. So decoding is injective in each format. -/
theorem C30_decode (he : WCurve p e) (hs : p % 4 = 3 ∨ p % 8 = 5) (h2 : NoTwoTorsion p e) (buf : List Byte) (P : Point)
    (h : e.decode buf = R.ok (.ok P)) : P.encode (buf.length == e.f.sizeBytes + 1) = R.ok buf := by
  have h1 := one_le_sizeBytes he
  by_cases hl1 : buf.length = 1
  · obtain ⟨t, rfl⟩ := List.length_eq_one_iff.1 hl1
    rw [decode_one he] at h; cases h
  by_cases hl : buf.length = e.f.sizeBytes + 1 ∨ buf.length = 2 * e.f.sizeBytes + 1
  swap
  · rw [decode_wrongSize he buf hl1 (by tauto) (by tauto)] at h; cases h
  obtain ⟨t, xs, ys, rfl, hx, hy⟩ := split_buf hl
  have fixed : ∀ l : List Byte, l.length = e.f.sizeBytes → Big.fromBytesBE l < p →
      Big.fixedBE ((Big.bits p + 7) / 8) (Big.fromBytesBE l : ZMod p).val = l := by
    intro l hl hlt
    rw [ZMod.val_natCast_of_lt hlt, ← size_eq he, ← hl, Big.fixedBE_fromBytesBE (by omega)]
  by_cases hxp : p ≤ Big.fromBytesBE xs
  · rw [decode_body he t xs ys hx hy, if_pos hxp] at h; cases h
  by_cases h0 : t = 0
  · rw [decode_body he t xs ys hx hy, if_neg hxp, if_pos h0] at h; cases h
  by_cases h4 : t = 4
  · subst h4
    by_cases hye : ys = []
    · rw [decode_body he _ xs ys hx hy, if_neg hxp, if_neg h0, if_pos rfl, if_pos hye] at h; cases h
    have hyl := hy.resolve_left hye
    by_cases hyp : p ≤ Big.fromBytesBE ys
    · rw [decode_body he _ xs ys hx hy, if_neg hxp, if_neg h0, if_pos rfl, if_neg hye, if_pos hyp] at h; cases h
    rw [decode_uncompressed he xs ys hx hyl (by omega) (by omega)] at h
    split_ifs at h
    simp only [R.ok.injEq, Except.ok.injEq] at h
    subst h
    have hlen : ((4 :: (xs ++ ys)).length == e.f.sizeBytes + 1) = false := by
      simp only [List.length_cons, List.length_append, beq_eq_false_iff_ne]; omega
    rw [hlen, encode_pt he]
    simp only [inv_one, mul_one, Bool.false_eq_true, if_false, fixed xs hx (by omega), fixed ys hyl (by omega)]
  by_cases ht : t = 2 ∨ t = 3
  swap
  · rw [decode_body he t xs ys hx hy, if_neg hxp, if_neg h0, if_neg h4, if_neg ht] at h; cases h
  by_cases hye : ys = []
  swap
  · rw [decode_body he t xs ys hx hy, if_neg hxp, if_neg h0, if_neg h4, if_pos ht, if_pos hye] at h; cases h
  subst hye
  rw [List.append_nil] at h ⊢
  obtain ⟨hc1, hc2⟩ := decode_compressed he hs t ht xs hx (by omega)
  by_cases hsq : IsSquare ((Big.fromBytesBE xs : ZMod p) ^ 3 + val p e.a * (Big.fromBytesBE xs : ZMod p) + val p e.b)
  · obtain ⟨y, hy2, htag, hd⟩ := hc2 hsq
    rw [hd] at h
    simp only [R.ok.injEq, Except.ok.injEq] at h
    subst h
    have hy0 : y ≠ 0 := by
      rintro rfl
      exact (noTwoTorsion_iff p e he).1 h2 _ (by rw [← hy2]; ring)
    have hlen : ((t :: xs).length == e.f.sizeBytes + 1) = true := by simp [hx]
    rw [hlen, encode_pt he]
    simp only [inv_one, mul_one, if_true, fixed xs hx (by omega), htag.resolve_left hy0]
  · rw [hc1 hsq] at h; cases h

/-- C30 is refuted for the decoder on a curve with a point of order two: both tags decode to `(0, 0)`. -/
theorem C30_refuted_two_torsion : ∃ P, toy7b.decode [2, 0] = R.ok (.ok P) ∧ toy7b.decode [3, 0] = R.ok (.ok P) := by
  refine ⟨⟨toy7b, ⟨⟨0, ⟨7⟩⟩, ⟨0, ⟨7⟩⟩, ⟨1, ⟨7⟩⟩⟩⟩, ?_, ?_⟩ <;> decide +kernel

example : toy7.decode [3, 2] = R.ok (.ok ⟨toy7, ⟨⟨2, ⟨7⟩⟩, ⟨5, ⟨7⟩⟩, ⟨1, ⟨7⟩⟩⟩⟩) := by decide +kernel

end
end Props
end Redox
