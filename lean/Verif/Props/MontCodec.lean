import Verif.Props.MontPoints

/-!
# C34, C35: encoding and decoding of Montgomery points
-/

set_option linter.unusedSectionVars false

namespace Redox.Props.Mo

open Spec Montgomery MLink Mont

section
variable {p : ℕ} [Fact p.Prime] {e : Curve} (he : MCurve p e)
include he

theorem size_eq : e.f.sizeBytes = (Big.bits p + 7) / 8 := by rw [he.field]; rfl

theorem odd_p : p % 2 = 1 := he.prime.eq_two_or_odd.resolve_left he.odd

theorem fixedBE_len (v : ZMod p) : (Big.fixedBE ((Big.bits p + 7) / 8) v.val).length = e.f.sizeBytes := by
  rw [size_eq he]; exact Big.fixedBE_length (Big.one_le_size he.prime.ne_zero) (val_lt_size v)

/-- `encode` in closed form. -/
theorem encode_pt (x y z : ZMod p) (c : Bool) :
    (pt e x y z).encode c = R.ok (if c then signTag (y * z⁻¹) :: Big.fixedBE ((Big.bits p + 7) / 8) (x * z⁻¹).val
      else 4 :: (Big.fixedBE ((Big.bits p + 7) / 8) (x * z⁻¹).val ++ Big.fixedBE ((Big.bits p + 7) / 8) (y * z⁻¹).val)) := by
  rw [Point.encode, normalize_pt he, R.ok_bind, isZero_pt]
  have h1 : decide (x * z⁻¹ = 0 ∧ y * z⁻¹ ≠ 0 ∧ (1 : ZMod p) = 0) = false := by simp
  rw [h1]
  simp only [Bool.false_eq_true, if_false]
  have hx : (pt e (x * z⁻¹) (y * z⁻¹) 1).c.x = el (x * z⁻¹) := rfl
  have hy : (pt e (x * z⁻¹) (y * z⁻¹) 1).c.y = el (y * z⁻¹) := rfl
  rw [hx, hy, toBytesBE_el, toBytesBE_el]
  cases c <;> rfl

/-- Uncompressed decoding in closed form. -/
theorem decode_uncompressed (xs ys : List Byte) (hx : xs.length = e.f.sizeBytes) (hy : ys.length = e.f.sizeBytes)
    (hxp : Big.fromBytesBE xs < p) (hyp : Big.fromBytesBE ys < p) :
    e.decode (4 :: (xs ++ ys)) =
      if val p e.b * (Big.fromBytesBE ys : ZMod p) ^ 2 =
        (Big.fromBytesBE xs : ZMod p) ^ 3 + val p e.a * (Big.fromBytesBE xs : ZMod p) ^ 2 + (Big.fromBytesBE xs : ZMod p)
      then R.ok (.ok (pt e (Big.fromBytesBE xs : ZMod p) (Big.fromBytesBE ys : ZMod p) 1))
      else R.panic .notValidPoint := by
  have h1 := one_le_sizeBytes he
  have hne : ys ≠ [] := by rintro rfl; simp at hy; omega
  rw [decode_body he 4 xs ys hx (Or.inr hy), if_neg (by omega), if_neg (by decide), if_pos rfl, if_neg hne,
    if_neg (by omega), newPoint_pt he]
  split_ifs <;> rfl

/-- Compressed decoding in closed form. -/
theorem decode_compressed (hs : SqrtOK p) (t : Byte) (ht : t = 2 ∨ t = 3) (xs : List Byte)
    (hx : xs.length = e.f.sizeBytes) (hxp : Big.fromBytesBE xs < p) :
    ((¬ ∃ y, val p e.b * y ^ 2 = (Big.fromBytesBE xs : ZMod p) ^ 3 + val p e.a * (Big.fromBytesBE xs : ZMod p) ^ 2 +
        (Big.fromBytesBE xs : ZMod p)) → e.decode (t :: xs) = R.panic .notValidPoint) ∧
    ((∃ y, val p e.b * y ^ 2 = (Big.fromBytesBE xs : ZMod p) ^ 3 + val p e.a * (Big.fromBytesBE xs : ZMod p) ^ 2 +
        (Big.fromBytesBE xs : ZMod p)) →
      ∃ y : ZMod p, val p e.b * y ^ 2 =
          (Big.fromBytesBE xs : ZMod p) ^ 3 + val p e.a * (Big.fromBytesBE xs : ZMod p) ^ 2 + (Big.fromBytesBE xs : ZMod p) ∧
        (y = 0 ∨ signTag y = t) ∧ e.decode (t :: xs) = R.ok (.ok (pt e (Big.fromBytesBE xs : ZMod p) y 1))) := by
  have h0 : t ≠ 0 := by rcases ht with rfl | rfl <;> decide
  have h4 : t ≠ 4 := by rcases ht with rfl | rfl <;> decide
  have hb := decode_body he t xs [] hx (Or.inl rfl)
  rw [List.append_nil, if_neg (by omega), if_neg h0, if_neg h4, if_pos ht, if_neg (by simp)] at hb
  set u : ZMod p := (Big.fromBytesBE xs : ZMod p) with hu
  have hbne := eb_ne he
  set g : ZMod p := (u ^ 3 + val p e.a * u ^ 2 + u) / val p e.b with hg
  have hgy : ∀ y : ZMod p, val p e.b * y ^ 2 = u ^ 3 + val p e.a * u ^ 2 + u ↔ y ^ 2 = g := by
    intro y; rw [hg, eq_div_iff hbne, mul_comm]
  simp only [sqrt_el hs, R.ok_bind, neg_el] at hb
  have hb' : e.decode (t :: xs) = (do return .ok (← e.newPoint (el u)
      (el (if t ≠ signTag (sqrtZ g) then -sqrtZ g else sqrtZ g)))) := by
    rw [hb, signTag]; split_ifs <;> rfl
  rw [hb', newPoint_pt he]
  simp only [hgy]
  have hsq : (if t ≠ signTag (sqrtZ g) then -sqrtZ g else sqrtZ g) ^ 2 = sqrtZ g * sqrtZ g := by
    split_ifs <;> ring
  rw [hsq]
  have hex : (∃ y, y ^ 2 = g) ↔ IsSquare g := ⟨fun ⟨y, h⟩ => ⟨y, by rw [← h]; ring⟩, fun ⟨y, h⟩ => ⟨y, by rw [h]; ring⟩⟩
  rw [hex]
  constructor
  · intro hns
    rw [if_neg (sqrtZ_not_sq hns)]; rfl
  · intro hsq'
    refine ⟨_, ?_, ?_, by rw [if_pos (sqrtZ_sq hs hsq')]; rfl⟩
    · rw [hsq, sqrtZ_sq hs hsq']
    · by_cases hz : sqrtZ g = 0
      · left; rw [hz]; simp
      · right
        by_cases htt : t = signTag (sqrtZ g)
        · rw [if_neg (by simpa using htt)]; exact htt.symm
        · rw [if_pos htt]
          have h1 := signTag_neg (odd_p he) hz
          rcases ht with rfl | rfl <;> rcases signTag_mem (sqrtZ g) with h2 | h2 <;>
            rcases signTag_mem (-sqrtZ g) with h3 | h3 <;> simp_all

end

section
variable (p : ℕ) [Fact p.Prime] (e : Curve)

/-! ## C34 -/

/-- C34. Every affine point (any representative) of a curve with `b = 1` over a field with square roots round-trips through
both formats, with the stated lengths. Partial: not the identity, see `C34_refuted_identity`. -/
theorem _root_.Redox.Props.C34_roundtrip_partial (he : MCurve p e) (hb : val p e.b = 1) (hs : p % 4 = 3 ∨ p % 8 = 5)
    (P : Point) (A : (mGroup p e).Point) (hP : MDenotes p e P A) (hA : A ≠ 0) (c : Bool) :
    ∃ bs Q, P.encode c = R.ok bs ∧ bs.length = (if c then e.f.sizeBytes + 1 else 2 * e.f.sizeBytes + 1) ∧
      e.decode bs = R.ok (.ok Q) ∧ MDenotes p e Q A ∧ P.eq Q = R.ok true ∧ e.isOnCurve Q = R.ok true := by
  obtain ⟨x, y, z, rfl, hr⟩ := denotes_iff.1 hP
  rcases A with _ | ⟨u, v, hn⟩
  · exact absurd rfl hA
  have heq := ((nonsingular_iff _ u v).1 hn).1
  obtain ⟨hz, rfl, rfl⟩ := hr
  have hu : u * z * z⁻¹ = u := by field_simp
  have hv : v * z * z⁻¹ = v := by field_simp
  have hQ : MDenotes p e (pt e u v 1) (.some u v hn) := denotes_iff.2 ⟨_, _, _, rfl, one_ne_zero, by ring, by ring⟩
  have hon : e.isOnCurve (pt e u v 1) = R.ok true := by
    rw [isOnCurve_pt (ea he) (eb he), hb, decide_eq_true (by linear_combination heq)]
  have heq' : (pt e (u * z) (v * z) z).eq (pt e u v 1) = R.ok true := by
    rw [eq_of_denotes _ _ _ _ hP hQ]; simp
  have fromBE : ∀ v : ZMod p, Big.fromBytesBE (Big.fixedBE ((Big.bits p + 7) / 8) v.val) = v.val :=
    fun v => Big.fromBytesBE_fixedBE _ _
  refine ⟨_, pt e u v 1, encode_pt he _ _ _ c, ?_, ?_, hQ, heq', hon⟩
  · rw [hu, hv]
    cases c
    · simp [fixedBE_len he]; omega
    · simp [fixedBE_len he]
  · rw [hu, hv]
    cases c with
    | false =>
      simp only [Bool.false_eq_true, if_false]
      rw [decode_uncompressed he _ _ (fixedBE_len he u) (fixedBE_len he v) (by rw [fromBE]; exact ZMod.val_lt u)
        (by rw [fromBE]; exact ZMod.val_lt v)]
      rw [fromBE, fromBE, cast_val_nat, cast_val_nat, hb, one_mul, if_pos heq]
    | true =>
      simp only [if_true]
      obtain ⟨y', hy', htag, hd⟩ := (decode_compressed he hs (signTag v) (signTag_mem v) _ (fixedBE_len he u)
        (by rw [fromBE]; exact ZMod.val_lt u)).2 (by
          rw [fromBE, cast_val_nat, hb]; exact ⟨v, by rw [one_mul, ← heq]⟩)
      rw [hd]
      rw [fromBE, cast_val_nat, hb, one_mul] at hy'
      rw [fromBE, cast_val_nat]
      have : y' = v := by
        rcases sq_eq_sq_iff_eq_or_eq_neg.1 (hy'.trans heq.symm) with h | h
        · exact h
        · by_cases hv0 : v = 0
          · rw [h, hv0, neg_zero]
          · rcases htag with h0 | h0
            · rw [h, neg_eq_zero] at h0; exact absurd h0 hv0
            · rw [h] at h0; exact absurd h0 (signTag_neg (odd_p he) hv0)
      rw [this]

/-- C34, canonicity: equal points have identical encodings whatever the representatives; different affine points have
different encodings in the same format. -/
theorem _root_.Redox.Props.C34_canonical_partial (he : MCurve p e) (c : Bool) (P Q : Point) (A B : (mGroup p e).Point)
    (hP : MDenotes p e P A) (hQ : MDenotes p e Q B) :
    (A = B → P.encode c = Q.encode c) ∧ (A ≠ 0 → B ≠ 0 → P.encode c = Q.encode c → A = B) := by
  obtain ⟨x, y, z, rfl, hA⟩ := denotes_iff.1 hP
  obtain ⟨x', y', z', rfl, hB⟩ := denotes_iff.1 hQ
  rw [encode_pt he, encode_pt he]
  rcases A with _ | ⟨u, v, hn⟩ <;> rcases B with _ | ⟨u', v', hn'⟩
  · obtain ⟨rfl, -, rfl⟩ := hA
    obtain ⟨rfl, -, rfl⟩ := hB
    simp
  · exact ⟨fun h => (by cases h), fun h => absurd rfl h⟩
  · exact ⟨fun h => (by cases h), fun _ h => absurd rfl h⟩
  · obtain ⟨hz, rfl, rfl⟩ := hA
    obtain ⟨hz', rfl, rfl⟩ := hB
    have hu : u * z * z⁻¹ = u := by field_simp
    have hv : v * z * z⁻¹ = v := by field_simp
    have hu' : u' * z' * z'⁻¹ = u' := by field_simp
    have hv' : v' * z' * z'⁻¹ = v' := by field_simp
    rw [hu, hv, hu', hv']
    rw [WeierstrassCurve.Affine.Point.some.injEq]
    refine ⟨by rintro ⟨rfl, rfl⟩; rfl, fun _ _ h => ?_⟩
    have inj : ∀ {a b : ZMod p}, Big.fixedBE ((Big.bits p + 7) / 8) a.val = Big.fixedBE ((Big.bits p + 7) / 8) b.val → a = b :=
      fun h => ZMod.val_injective p (Big.fixedBE_inj h)
    cases c with
    | false =>
      simp only [Bool.false_eq_true, if_false, R.ok.injEq, List.cons.injEq, true_and] at h
      obtain ⟨h1, h2⟩ := List.append_inj h (by rw [fixedBE_len he, fixedBE_len he])
      exact ⟨inj h1, inj h2⟩
    | true =>
      simp only [if_true, R.ok.injEq, List.cons.injEq] at h
      obtain ⟨h1, h2⟩ := h
      have huu := inj h2
      subst huu
      refine ⟨rfl, ?_⟩
      have e1 := ((nonsingular_iff _ u v).1 hn).1
      have e2 := ((nonsingular_iff _ u v').1 hn').1
      rcases sq_eq_sq_iff_eq_or_eq_neg.1 (e1.trans e2.symm) with h | h
      · exact h
      · by_cases hv0 : v' = 0
        · rw [h, hv0, neg_zero]
        · rw [h] at h1; exact absurd h1 (signTag_neg (odd_p he) hv0)

/-- C34 is refuted at the identity, on every Montgomery curve and in both formats: the identity and the point `(0, 0)` are
different points with the same encoding, and decoding it returns `(0, 0)`. -/
theorem _root_.Redox.Props.C34_refuted_identity (he : MCurve p e) (hs : p % 4 = 3 ∨ p % 8 = 5) (c : Bool) :
    ∃ I T bs, e.identity = R.ok I ∧ e.newPoint ⟨0, ⟨p⟩⟩ ⟨0, ⟨p⟩⟩ = R.ok T ∧ I.eq T = R.ok false ∧
      I.encode c = R.ok bs ∧ T.encode c = R.ok bs ∧ e.decode bs = R.ok (.ok T) := by
  have h0 : (⟨0, ⟨p⟩⟩ : FpElt) = el (0 : ZMod p) := by simp [el]
  have hp := he.prime.pos
  have fromBE : Big.fromBytesBE (Big.fixedBE ((Big.bits p + 7) / 8) (0 : ZMod p).val) = 0 := by
    rw [Big.fromBytesBE_fixedBE, ZMod.val_zero]
  refine ⟨pt e (0 : ZMod p) 1 0, pt e (0 : ZMod p) 0 1, _, identity_pt he, ?_, ?_, encode_pt he _ _ _ c, ?_, ?_⟩
  · rw [h0, newPoint_pt he, if_pos (by ring)]
  · rw [eq_pt]; simp
  · rw [encode_pt he]; simp
  · rw [zero_mul, inv_zero, mul_zero]
    cases c with
    | false =>
      simp only [Bool.false_eq_true, if_false]
      rw [decode_uncompressed he _ _ (fixedBE_len he 0) (fixedBE_len he 0) (by rw [fromBE]; exact hp)
        (by rw [fromBE]; exact hp), fromBE]
      simp
    | true =>
      simp only [if_true]
      obtain ⟨y, hy, -, hd⟩ := (decode_compressed he hs (signTag (0 : ZMod p)) (signTag_mem _) _ (fixedBE_len he 0)
        (by rw [fromBE]; exact hp)).2 ⟨0, by rw [fromBE]; simp⟩
      rw [fromBE] at hy hd
      have hy0 : y = 0 := by
        have : val p e.b * y ^ 2 = 0 := by rw [hy]; simp
        simpa [eb_ne he] using this
      rw [hd, hy0]
      simp

example : MCurve 7 toyM ∧ val 7 toyM.b = 1 ∧ (7 % 4 = 3 ∨ 7 % 8 = 5) ∧
    (do (← toyM.getGenerator).encode true) = R.ok [3, 3] ∧
    (do (← toyM.getGenerator).encode false) = R.ok [4, 3, 3] ∧
    (do (← toyM.identity).encode false) = R.ok [4, 0, 0] :=
  ⟨toyM_curve, by decide, by decide, by decide +kernel, by decide +kernel, by decide +kernel⟩

/-! ## C35 -/

/-- C35, what holds (any `b ≠ 0`): a decoded point belongs to the curve and passes `is_on_curve`; wrong lengths, unknown
tags, coordinates not below `p` and a zero tag are rejected with an error. -/
theorem _root_.Redox.Props.C35_decode_partial (he : MCurve p e) (buf : List Byte) :
    (∀ P, e.decode buf = R.ok (.ok P) → P.e = e ∧ e.isOnCurve P = R.ok true ∧ P.c.z.isOne) ∧
    (buf.length ≠ 1 → buf.length ≠ e.f.sizeBytes + 1 → buf.length ≠ 2 * e.f.sizeBytes + 1 →
      e.decode buf = R.ok (.error .wrongSize)) ∧
    (∀ t xs ys, buf = t :: (xs ++ ys) → xs.length = e.f.sizeBytes → (ys = [] ∨ ys.length = e.f.sizeBytes) →
      (p ≤ beValue xs ∨ (t = 4 ∧ p ≤ beValue ys) ∨ t ∉ [2, 3, 4] ∨ (t = 4 ∧ ys = []) ∨ (t ∈ [2, 3] ∧ ys ≠ [])) →
      ∃ err, e.decode buf = R.ok (.error err)) := by
  refine ⟨fun P h => ?_, fun h1 h2 h3 => decode_wrongSize he buf h1 h2 h3, ?_⟩
  · obtain ⟨x, y, h⟩ := decode_newPoint he h
    rw [newPoint_pt he] at h
    split_ifs at h with h0
    rw [R.ok.injEq] at h
    subst h
    refine ⟨rfl, ?_, by simp [pt]⟩
    rw [isOnCurve_pt (ea he) (eb he), decide_eq_true (by linear_combination h0)]
  · rintro t xs ys rfl hx hy h
    have h1 := one_le_sizeBytes he
    rw [decode_body he t xs ys hx hy]
    rw [beValue_eq, beValue_eq] at h
    simp only [List.mem_cons, List.not_mem_nil, or_false, not_or] at h
    split_ifs with g1 g2 g3 g4 g5 g6 g7
    all_goals first
      | exact ⟨_, rfl⟩
      | (exfalso; subst_vars; simp_all; done)
      | (exfalso; subst_vars; simp_all; omega)

/-- C35, exact panic condition: on a field with square roots, `decode` panics exactly on one-byte inputs, on well-formed
uncompressed inputs that are not on the curve, and on well-formed compressed inputs whose `x` has no `y`. -/
theorem _root_.Redox.Props.C35_panics_iff (he : MCurve p e) (hs : p % 4 = 3 ∨ p % 8 = 5) (buf : List Byte) :
    (∃ why, e.decode buf = R.panic why) ↔
      buf.length = 1 ∨
      (∃ xs ys, buf = 4 :: (xs ++ ys) ∧ xs.length = e.f.sizeBytes ∧ ys.length = e.f.sizeBytes ∧ beValue xs < p ∧
        beValue ys < p ∧ val p e.b * (beValue ys : ZMod p) ^ 2 ≠
          (beValue xs : ZMod p) ^ 3 + val p e.a * (beValue xs : ZMod p) ^ 2 + (beValue xs : ZMod p)) ∨
      (∃ t xs, buf = t :: xs ∧ t ∈ [2, 3] ∧ xs.length = e.f.sizeBytes ∧ beValue xs < p ∧
        ¬ ∃ y, val p e.b * y ^ 2 =
          (beValue xs : ZMod p) ^ 3 + val p e.a * (beValue xs : ZMod p) ^ 2 + (beValue xs : ZMod p)) := by
  have h1 := one_le_sizeBytes he
  simp only [beValue_eq]
  constructor
  · rintro ⟨why, h⟩
    by_cases hl1 : buf.length = 1
    · exact Or.inl hl1
    right
    by_cases hl : buf.length = e.f.sizeBytes + 1 ∨ buf.length = 2 * e.f.sizeBytes + 1
    · obtain ⟨t, xs, ys, rfl, hx, hy⟩ := split_buf hl
      by_cases hxp : p ≤ Big.fromBytesBE xs
      · rw [decode_body he t xs ys hx hy, if_pos hxp] at h; cases h
      by_cases h0 : t = 0
      · rw [decode_body he t xs ys hx hy, if_neg hxp, if_pos h0] at h; cases h
      by_cases h4 : t = 4
      · subst h4
        left
        by_cases hye : ys = []
        · rw [decode_body he _ xs ys hx hy, if_neg hxp, if_neg h0, if_pos rfl, if_pos hye] at h; cases h
        have hyl := hy.resolve_left hye
        by_cases hyp : p ≤ Big.fromBytesBE ys
        · rw [decode_body he _ xs ys hx hy, if_neg hxp, if_neg h0, if_pos rfl, if_neg hye, if_pos hyp] at h; cases h
        refine ⟨xs, ys, rfl, hx, hyl, by omega, by omega, fun heq => ?_⟩
        rw [decode_uncompressed he xs ys hx hyl (by omega) (by omega), if_pos heq] at h; cases h
      by_cases ht : t = 2 ∨ t = 3
      · right
        by_cases hye : ys = []
        · subst hye
          refine ⟨t, xs, by simp, by simpa using ht, hx, by omega, fun hsq => ?_⟩
          obtain ⟨y, -, -, hd⟩ := (decode_compressed he hs t ht xs hx (by omega)).2 hsq
          rw [List.append_nil, hd] at h; cases h
        · rw [decode_body he t xs ys hx hy, if_neg hxp, if_neg h0, if_neg h4, if_pos ht, if_pos hye] at h; cases h
      · rw [decode_body he t xs ys hx hy, if_neg hxp, if_neg h0, if_neg h4, if_neg ht] at h; cases h
    · rw [decode_wrongSize he buf hl1 (by tauto) (by tauto)] at h; cases h
  · rintro (h | ⟨xs, ys, rfl, hx, hy, hxp, hyp, h⟩ | ⟨t, xs, rfl, ht, hx, hxp, h⟩)
    · obtain ⟨t, rfl⟩ := List.length_eq_one_iff.1 h
      exact ⟨_, decode_one he t⟩
    · exact ⟨_, by rw [decode_uncompressed he xs ys hx hy hxp hyp, if_neg h]⟩
    · exact ⟨_, (decode_compressed he hs t (by simpa using ht) xs hx hxp).1 h⟩

/-- C35 is refuted: `decode` panics on some byte strings. -/
theorem _root_.Redox.Props.C35_refuted : toyM.decode [0] = R.panic .indexOutOfRange ∧
    toyM.decode [4, 3, 2] = R.panic .notValidPoint ∧ toyM.decode [2, 2] = R.panic .notValidPoint := by
  refine ⟨?_, ?_, ?_⟩ <;> decide +kernel

example : toyM.decode [2, 5] = R.ok (.ok ⟨toyM, ⟨⟨5, ⟨7⟩⟩, ⟨2, ⟨7⟩⟩, ⟨1, ⟨7⟩⟩⟩⟩) := by decide +kernel

end
end Redox.Props.Mo
