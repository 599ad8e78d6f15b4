import Verif.Model.Display
import Verif.Props.FieldMisc

/-!
# C63, C64: printed forms
-/

namespace Redox.Props

open Spec

theorem showInt_inj (a b : ℤ) (h : Big.showInt a = Big.showInt b) : a = b := by
  have hp : 1 ≤ a.natAbs + b.natAbs + (a - b).natAbs + 1 := by omega
  have h1 := C12_decimal _ hp a
  have h2 := C12_decimal _ hp b
  rw [h, h2] at h1
  haveI : NeZero (a.natAbs + b.natAbs + (a - b).natAbs + 1) := ⟨by omega⟩
  simp only [Fp.new, elt_eq, R.ok.injEq, el_inj] at h1
  rw [ZMod.intCast_eq_intCast_iff_dvd_sub] at h1
  have := Int.eq_zero_of_abs_lt_dvd h1 (by rw [← Int.natCast_natAbs]; omega)
  omega

theorem showNat_inj (a b : ℕ) (h : Big.showNat a = Big.showNat b) : a = b := by
  have : Big.showInt a = Big.showInt b := by
    rwa [Big.showInt, Big.showInt, if_neg (by omega), if_neg (by omega), Int.natAbs_natCast, Int.natAbs_natCast]
  exact_mod_cast showInt_inj a b this

/-- The characters of a printed natural number are decimal digits. -/
theorem showNat_digit (n : ℕ) (b : Byte) (h : b ∈ Big.showNat n) : 48 ≤ b.toNat ∧ b.toNat ≤ 57 := by
  obtain ⟨ds, -, hd, -, hs⟩ := showNat_literal n
  rw [hs, List.mem_map] at h
  obtain ⟨d, hm, rfl⟩ := h
  have := hd d hm
  obtain ⟨d, u⟩ := d
  simp only at this
  interval_cases d <;> cases u <;> decide

/-! ## C63 -/

/-- C63. The text of a scalar is the decimal text of its reduced value: it consists of decimal digits only, parsing it as
an integer and giving that to `new_scalar` returns the same scalar, and different scalars of one group print
differently. -/
theorem C63_scalar (r : ℕ) (hr : 1 ≤ r) (k : ℤ) : ∃ s, Scalar.new k r = R.ok s ∧
    s.display = Big.showInt (k % r) ∧ (∀ b ∈ s.display, 48 ≤ b.toNat ∧ b.toNat ≤ 57) ∧
    (∃ z, Big.parseInt 10 s.display = some z ∧ Scalar.new z r = R.ok s) ∧
    ∀ k' s', Scalar.new k' r = R.ok s' → (s.display = s'.display ↔ s = s') := by
  have h0 : 0 ≤ k % (r : ℤ) := Int.emod_nonneg _ (by omega)
  have hnew := fun z => scalar_new_eq r hr z
  refine ⟨_, hnew k, rfl, ?_, ?_, ?_⟩
  · intro b hb
    simp only [Scalar.display, Big.showInt, if_neg (not_lt.2 h0)] at hb
    exact showNat_digit _ b hb
  · refine ⟨k % r, ?_, ?_⟩
    · simp only [Scalar.display, Big.showInt, if_neg (not_lt.2 h0)]
      obtain ⟨ds, hne, hd, hv, hs⟩ := showNat_literal (k % (r : ℤ)).natAbs
      rw [hs, parseInt_map 10 (by omega) ds hne hd, hv, Int.natAbs_of_nonneg h0]
    · rw [hnew, Int.emod_emod_of_dvd _ (dvd_refl _)]
  · intro k' s' h
    rw [hnew, R.ok.injEq] at h
    subst h
    constructor
    · intro h; have := showInt_inj _ _ h; simp only at this; rw [this]
    · intro h; rw [h]

example : (Scalar.mk 12 101).display = ascii! "12" ∧ Scalar.new (-89) 101 = R.ok ⟨12, 101⟩ := by
  constructor <;> decide +kernel

/-! ## C64 -/

theorem sep_inj : ∀ {l m s t : List Byte}, (∀ b ∈ l, b ≠ 10) → (∀ b ∈ m, b ≠ 10) → l ++ 10 :: s = m ++ 10 :: t →
    l = m ∧ s = t
  | [], [], _, _, _, _, h => by simpa using h
  | [], b :: m, _, _, _, hm, h => by
    simp only [List.nil_append, List.cons_append, List.cons.injEq] at h
    exact absurd h.1.symm (hm b (by simp))
  | b :: l, [], _, _, hl, _, h => by
    simp only [List.nil_append, List.cons_append, List.cons.injEq] at h
    exact absurd h.1 (hl b (by simp))
  | b :: l, c :: m, s, t, hl, hm, h => by
    simp only [List.cons_append, List.cons.injEq] at h
    obtain ⟨h1, h2⟩ := sep_inj (fun b hb => hl b (by simp [hb])) (fun b hb => hm b (by simp [hb])) h.2
    exact ⟨by rw [h.1, h1], h2⟩

theorem display_el {p : ℕ} [NeZero p] (z : ZMod p) : (el z).display = R.ok (Big.showInt (z.cast : ℤ)) := by
  simp [FpElt.display, modFloor_eq]

theorem show_no_newline {p : ℕ} [NeZero p] (z : ZMod p) : ∀ b ∈ Big.showInt (z.cast : ℤ), b ≠ 10 := by
  intro b hb
  have h0 := cast_nonneg z
  rw [Big.showInt, if_neg (by omega)] at hb
  have := (showNat_digit _ b hb).1
  rintro rfl
  simp at this

theorem show_el_inj {p : ℕ} [NeZero p] {z w : ZMod p} (h : Big.showInt (z.cast : ℤ) = Big.showInt (w.cast : ℤ)) : z = w := by
  have := showInt_inj _ _ h
  have := congrArg (Int.cast : ℤ → ZMod p) this
  simpa using this

/-- C64, fields: the prime field of order `p` prints as `GF(p)` and its quadratic extension as `GF(p)^2`, with `p` in decimal; equal text exactly
when the fields are equal, and the text of a prime field is never that of a quadratic field. -/
theorem C64_field (p q : ℕ) : (Fp.new p).display = ascii! "GF(" ++ Big.showNat p ++ ascii! ")" ∧
    (Fp2.new p).display = ascii! "GF(" ++ Big.showNat p ++ ascii! ")^2" ∧
    ((Fp.new p).display = (Fp.new q).display ↔ Fp.new p = Fp.new q) ∧
    ((Fp2.new p).display = (Fp2.new q).display ↔ Fp2.new p = Fp2.new q) ∧ (Fp.new p).display ≠ (Fp2.new q).display := by
  have key : (Fp.new p).display = (Fp.new q).display → p = q := by
    intro h
    simp only [Fp.display, Fp.new, List.append_cancel_left_eq, List.append_assoc] at h
    exact showNat_inj _ _ (List.append_cancel_right h)
  refine ⟨rfl, ?_, ?_, ?_, ?_⟩
  · rw [Fp2.display, Fp2.new, Fp.display, Fp.new]
    simp
  · exact ⟨fun h => by rw [key h], fun h => by rw [h]⟩
  · refine ⟨fun h => ?_, fun h => by rw [h]⟩
    simp only [Fp2.display, Fp2.new] at h
    rw [key (List.append_cancel_right h)]
  · intro h
    have := congrArg (fun l => l.reverse.head?) h
    simp [Fp.display, Fp2.display] at this

example : (Fp.new 7).display = ascii! "GF(7)" ∧ (Fp2.new 103).display = ascii! "GF(103)^2" := by
  constructor <;> decide +kernel

/-- C64, curves: printing never panics and, for curves over one field, the text determines the two coefficients and
nothing else. -/
theorem C64_curve (p : ℕ) (hp : 1 ≤ p) :
    (∀ e e' : Weierstrass.Curve, Canon p e.a → Canon p e.b → Canon p e'.a → Canon p e'.b → ∃ s s', e.display = R.ok s ∧
      e'.display = R.ok s' ∧ (s = s' ↔ e.a = e'.a ∧ e.b = e'.b)) ∧
    (∀ e e' : Montgomery.Curve, Canon p e.a → Canon p e.b → Canon p e'.a → Canon p e'.b → ∃ s s', e.display = R.ok s ∧
      e'.display = R.ok s' ∧ (s = s' ↔ e.a = e'.a ∧ e.b = e'.b)) ∧
    (∀ e e' : Edwards.Curve, Canon p e.a → Canon p e.d → Canon p e'.a → Canon p e'.d → ∃ s s', e.display = R.ok s ∧
      e'.display = R.ok s' ∧ (s = s' ↔ e.a = e'.a ∧ e.d = e'.d)) := by
  haveI : NeZero p := ⟨by omega⟩
  have core : ∀ (pre : List Byte) (c : Byte) (a b a' b' : ZMod p),
      (pre ++ ([10, 97, 58, 32] ++ (Big.showInt (a.cast : ℤ) ++ 10 :: c :: 58 :: 32 :: Big.showInt (b.cast : ℤ))) =
        pre ++ ([10, 97, 58, 32] ++ (Big.showInt (a'.cast : ℤ) ++ 10 :: c :: 58 :: 32 :: Big.showInt (b'.cast : ℤ)))) ↔
      (el a = el a' ∧ el b = el b') := by
    intro pre c a b a' b'
    constructor
    · intro h
      rw [List.append_cancel_left_eq, List.append_cancel_left_eq] at h
      obtain ⟨h1, h2⟩ := sep_inj (show_no_newline a) (show_no_newline a') h
      simp only [List.cons.injEq, true_and] at h2
      rw [show_el_inj h1, show_el_inj h2]; exact ⟨rfl, rfl⟩
    · rintro ⟨h1, h2⟩
      rw [el_inj] at h1 h2
      rw [h1, h2]
  refine ⟨fun e e' h1 h2 h3 h4 => ?_, fun e e' h1 h2 h3 h4 => ?_, fun e e' h1 h2 h3 h4 => ?_⟩
  · obtain ⟨a, ha⟩ := canon_iff.1 h1
    obtain ⟨b, hb⟩ := canon_iff.1 h2
    obtain ⟨a', ha'⟩ := canon_iff.1 h3
    obtain ⟨b', hb'⟩ := canon_iff.1 h4
    rw [Weierstrass.Curve.display, Weierstrass.Curve.display, ha, hb, ha', hb']
    simp only [display_el, R.ok_bind, R.pure_eq]
    refine ⟨_, _, rfl, rfl, ?_⟩
    rw [← core (ascii! "Weierstrass Curve y^2=x^3+ax+b") 98]
    simp
  · obtain ⟨a, ha⟩ := canon_iff.1 h1
    obtain ⟨b, hb⟩ := canon_iff.1 h2
    obtain ⟨a', ha'⟩ := canon_iff.1 h3
    obtain ⟨b', hb'⟩ := canon_iff.1 h4
    rw [Montgomery.Curve.display, Montgomery.Curve.display, ha, hb, ha', hb']
    simp only [display_el, R.ok_bind, R.pure_eq]
    refine ⟨_, _, rfl, rfl, ?_⟩
    rw [← core (ascii! "Montgomery Curve by^2=x^3+ax^2+x") 98]
    simp
  · obtain ⟨a, ha⟩ := canon_iff.1 h1
    obtain ⟨b, hb⟩ := canon_iff.1 h2
    obtain ⟨a', ha'⟩ := canon_iff.1 h3
    obtain ⟨b', hb'⟩ := canon_iff.1 h4
    rw [Edwards.Curve.display, Edwards.Curve.display, ha, hb, ha', hb']
    simp only [display_el, R.ok_bind, R.pure_eq]
    refine ⟨_, _, rfl, rfl, ?_⟩
    rw [← core (ascii! "Twisted Edwards Curve ax^2+y^2=1+dx^2y^2") 100]
    simp

/-- The text `x: ‥ y: ‥ z: ‥` determines the three numbers. -/
theorem text3 {p : ℕ} [NeZero p] (x y z x' y' z' : ZMod p) :
    ([10, 120, 58, 32] ++ (Big.showInt (x.cast : ℤ) ++ 10 :: 121 :: 58 :: 32 :: (Big.showInt (y.cast : ℤ) ++
        10 :: 122 :: 58 :: 32 :: Big.showInt (z.cast : ℤ))) =
      [10, 120, 58, 32] ++ (Big.showInt (x'.cast : ℤ) ++ 10 :: 121 :: 58 :: 32 :: (Big.showInt (y'.cast : ℤ) ++
        10 :: 122 :: 58 :: 32 :: Big.showInt (z'.cast : ℤ)))) ↔ (el x = el x' ∧ el y = el y' ∧ el z = el z') := by
  constructor
  · intro h
    rw [List.append_cancel_left_eq] at h
    obtain ⟨h1, h2⟩ := sep_inj (show_no_newline x) (show_no_newline x') h
    simp only [List.cons.injEq, true_and] at h2
    obtain ⟨h2, h3⟩ := sep_inj (show_no_newline y) (show_no_newline y') h2
    simp only [List.cons.injEq, true_and] at h3
    rw [show_el_inj h1, show_el_inj h2, show_el_inj h3]; exact ⟨rfl, rfl, rfl⟩
  · rintro ⟨h1, h2, h3⟩
    rw [el_inj] at h1 h2 h3
    rw [h1, h2, h3]

/-- The text `x: ‥ y: ‥ t: ‥ z: ‥` determines the four numbers. -/
theorem text4 {p : ℕ} [NeZero p] (x y t z x' y' t' z' : ZMod p) :
    ([10, 120, 58, 32] ++ (Big.showInt (x.cast : ℤ) ++ 10 :: 121 :: 58 :: 32 :: (Big.showInt (y.cast : ℤ) ++
        10 :: 116 :: 58 :: 32 :: (Big.showInt (t.cast : ℤ) ++ 10 :: 122 :: 58 :: 32 :: Big.showInt (z.cast : ℤ)))) =
      [10, 120, 58, 32] ++ (Big.showInt (x'.cast : ℤ) ++ 10 :: 121 :: 58 :: 32 :: (Big.showInt (y'.cast : ℤ) ++
        10 :: 116 :: 58 :: 32 :: (Big.showInt (t'.cast : ℤ) ++ 10 :: 122 :: 58 :: 32 :: Big.showInt (z'.cast : ℤ))))) ↔
      (el x = el x' ∧ el y = el y' ∧ el t = el t' ∧ el z = el z') := by
  constructor
  · intro h
    rw [List.append_cancel_left_eq] at h
    obtain ⟨h1, h2⟩ := sep_inj (show_no_newline x) (show_no_newline x') h
    simp only [List.cons.injEq, true_and] at h2
    obtain ⟨h2, h3⟩ := sep_inj (show_no_newline y) (show_no_newline y') h2
    simp only [List.cons.injEq, true_and] at h3
    obtain ⟨h3, h4⟩ := sep_inj (show_no_newline t) (show_no_newline t') h3
    simp only [List.cons.injEq, true_and] at h4
    rw [show_el_inj h1, show_el_inj h2, show_el_inj h3, show_el_inj h4]; exact ⟨rfl, rfl, rfl, rfl⟩
  · rintro ⟨h1, h2, h3, h4⟩
    rw [el_inj] at h1 h2 h3 h4
    rw [h1, h2, h3, h4]

/-- C64 is refuted for curves over different fields: the field is not printed, so that different curves print alike. -/
theorem C64_curve_refuted :
    (∃ e e' : Weierstrass.Curve, e ≠ e' ∧ e.display = e'.display ∧ ∃ s, e.display = R.ok s) ∧
    (∃ e e' : Montgomery.Curve, e ≠ e' ∧ e.display = e'.display ∧ ∃ s, e.display = R.ok s) ∧
    (∃ e e' : Edwards.Curve, e ≠ e' ∧ e.display = e'.display ∧ ∃ s, e.display = R.ok s) := by
  have ok : ∀ r : R (List Byte), r.isOk = true → ∃ s, r = R.ok s := by
    rintro (s | _) h
    · exact ⟨s, rfl⟩
    · cases h
  refine ⟨⟨⟨⟨7⟩, ⟨1, ⟨7⟩⟩, ⟨3, ⟨7⟩⟩, 6, ⟨4, ⟨7⟩⟩, ⟨1, ⟨7⟩⟩, 1⟩, ⟨⟨11⟩, ⟨1, ⟨11⟩⟩, ⟨3, ⟨11⟩⟩, 18, ⟨0, ⟨11⟩⟩, ⟨5, ⟨11⟩⟩, 1⟩, by decide, ?_, ?_⟩,
    ⟨⟨⟨7⟩, ⟨1, ⟨7⟩⟩, ⟨1, ⟨7⟩⟩, ⟨2, ⟨7⟩⟩, 8, ⟨0, ⟨7⟩⟩, ⟨0, ⟨7⟩⟩, 1⟩, ⟨⟨11⟩, ⟨1, ⟨11⟩⟩, ⟨1, ⟨11⟩⟩, ⟨2, ⟨11⟩⟩, 12, ⟨0, ⟨11⟩⟩, ⟨0, ⟨11⟩⟩, 1⟩, by decide, ?_, ?_⟩,
    ⟨⟨⟨7⟩, ⟨1, ⟨7⟩⟩, ⟨3, ⟨7⟩⟩, 4, ⟨1, ⟨7⟩⟩, ⟨0, ⟨7⟩⟩, 1⟩, ⟨⟨11⟩, ⟨1, ⟨11⟩⟩, ⟨3, ⟨11⟩⟩, 8, ⟨4, ⟨11⟩⟩, ⟨4, ⟨11⟩⟩, 1⟩, by decide, ?_, ?_⟩⟩
  all_goals first | decide +kernel | exact ok _ (by decide +kernel)

/-- C64, points: printing never panics; for points of one curve the texts are equal exactly when the stored
coordinates are, so equal text implies `==`. Partial: the converse fails, see `C64_refuted`. -/
theorem C64_point_partial (p : ℕ) (hp : 1 ≤ p) :
    (∀ P Q : Weierstrass.Point, P.e = Q.e → Canon p P.c.x → Canon p P.c.y → Canon p P.c.z → Canon p Q.c.x →
      Canon p Q.c.y → Canon p Q.c.z → ∃ s t, P.display = R.ok s ∧ Q.display = R.ok t ∧ (s = t ↔ P = Q)) ∧
    (∀ P Q : Montgomery.Point, P.e = Q.e → Canon p P.c.x → Canon p P.c.y → Canon p P.c.z → Canon p Q.c.x →
      Canon p Q.c.y → Canon p Q.c.z → ∃ s t, P.display = R.ok s ∧ Q.display = R.ok t ∧ (s = t ↔ P = Q)) ∧
    (∀ P Q : Edwards.Point, P.e = Q.e → Canon p P.c.x → Canon p P.c.y → Canon p P.c.t → Canon p P.c.z → Canon p Q.c.x →
      Canon p Q.c.y → Canon p Q.c.t → Canon p Q.c.z →
      ∃ s t, P.display = R.ok s ∧ Q.display = R.ok t ∧ (s = t ↔ P = Q)) := by
  haveI : NeZero p := ⟨by omega⟩
  refine ⟨?_, ?_, ?_⟩
  · rintro ⟨e, x, y, z⟩ ⟨e', x', y', z'⟩ he h1 h2 h3 h4 h5 h6
    obtain ⟨x, rfl⟩ := canon_iff.1 h1
    obtain ⟨y, rfl⟩ := canon_iff.1 h2
    obtain ⟨z, rfl⟩ := canon_iff.1 h3
    obtain ⟨x', rfl⟩ := canon_iff.1 h4
    obtain ⟨y', rfl⟩ := canon_iff.1 h5
    obtain ⟨z', rfl⟩ := canon_iff.1 h6
    simp only at he
    subst he
    simp only [Weierstrass.Point.display, display_el, R.ok_bind, R.pure_eq]
    refine ⟨_, _, rfl, rfl, ?_⟩
    have := text3 x y z x' y' z'
    simp only [Weierstrass.Point.mk.injEq, Weierstrass.ProyCoordinates.mk.injEq, true_and]
    rw [← this]
    simp
  · rintro ⟨e, x, y, z⟩ ⟨e', x', y', z'⟩ he h1 h2 h3 h4 h5 h6
    obtain ⟨x, rfl⟩ := canon_iff.1 h1
    obtain ⟨y, rfl⟩ := canon_iff.1 h2
    obtain ⟨z, rfl⟩ := canon_iff.1 h3
    obtain ⟨x', rfl⟩ := canon_iff.1 h4
    obtain ⟨y', rfl⟩ := canon_iff.1 h5
    obtain ⟨z', rfl⟩ := canon_iff.1 h6
    simp only at he
    subst he
    simp only [Montgomery.Point.display, display_el, R.ok_bind, R.pure_eq]
    refine ⟨_, _, rfl, rfl, ?_⟩
    have := text3 x y z x' y' z'
    simp only [Montgomery.Point.mk.injEq, Montgomery.ProyCoordinates.mk.injEq, true_and]
    rw [← this]
    simp
  · rintro ⟨e, x, y, t, z⟩ ⟨e', x', y', t', z'⟩ he h1 h2 h3 h4 h5 h6 h7 h8
    obtain ⟨x, rfl⟩ := canon_iff.1 h1
    obtain ⟨y, rfl⟩ := canon_iff.1 h2
    obtain ⟨t, rfl⟩ := canon_iff.1 h3
    obtain ⟨z, rfl⟩ := canon_iff.1 h4
    obtain ⟨x', rfl⟩ := canon_iff.1 h5
    obtain ⟨y', rfl⟩ := canon_iff.1 h6
    obtain ⟨t', rfl⟩ := canon_iff.1 h7
    obtain ⟨z', rfl⟩ := canon_iff.1 h8
    simp only at he
    subst he
    simp only [Edwards.Point.display, display_el, R.ok_bind, R.pure_eq]
    refine ⟨_, _, rfl, rfl, ?_⟩
    have := text4 x y t z x' y' t' z'
    simp only [Edwards.Point.mk.injEq, Edwards.ProyCoordinates.mk.injEq, true_and]
    rw [← this]
    simp

/-- C64 is refuted in the other direction on the curves of all three families: `G + G` and its `normalize`d form are `==`
and print differently, because the projective coordinates are printed as stored. -/
theorem C64_refuted :
    (∃ P Q : Weierstrass.Point, (do let e ← P256; let G ← e.getGenerator; G.add G) = R.ok P ∧ P.normalize = R.ok Q ∧
      P.eq Q = R.ok true ∧ P.display ≠ Q.display) ∧
    (∃ P Q : Montgomery.Point, (do let e ← CURVE25519; let G ← e.getGenerator; G.add G) = R.ok P ∧ P.normalize = R.ok Q ∧
      P.eq Q = R.ok true ∧ P.display ≠ Q.display) ∧
    (∃ P Q : Edwards.Point, (do let e ← EDWARDS25519; let G ← e.getGenerator; G.add G) = R.ok P ∧ P.normalize = R.ok Q ∧
      P.eq Q = R.ok true ∧ P.display ≠ Q.display) := by
  have ex : ∀ {α : Type} (r : R α) (norm : α → R α) (eq : α → α → R Bool) (disp : α → R (List Byte)),
      (match r with
        | .ok P => match norm P with
          | .ok Q => decide (eq P Q = R.ok true ∧ disp P ≠ disp Q)
          | .panic _ => false
        | .panic _ => false) = true →
      ∃ P Q, r = R.ok P ∧ norm P = R.ok Q ∧ eq P Q = R.ok true ∧ disp P ≠ disp Q := by
    intro α r norm eq disp h
    split at h
    · rename_i P
      split at h
      · rename_i Q hQ
        exact ⟨P, Q, rfl, hQ, of_decide_eq_true h⟩
      · cases h
    · cases h
  exact ⟨ex _ Weierstrass.Point.normalize Weierstrass.Point.eq Weierstrass.Point.display (by decide +kernel),
    ex _ Montgomery.Point.normalize Montgomery.Point.eq Montgomery.Point.display (by decide +kernel),
    ex _ Edwards.Point.normalize Edwards.Point.eq Edwards.Point.display (by decide +kernel)⟩

/-- C64, identifiers: the names printed by the eleven curve identifiers; they are pairwise different. -/
theorem C64_names :
    [P256_PARAMS, P384_PARAMS, P521_PARAMS, SECP256K1_PARAMS, SECP256K1_3ISO_PARAMS, BLS12381G1_PARAMS, BLS12381G1_11ISO_PARAMS].map
        Weierstrass.Params.display ++ [CURVE25519_PARAMS, CURVE448_PARAMS].map Montgomery.Params.display ++
        [EDWARDS25519_PARAMS, EDWARDS448_PARAMS].map Edwards.Params.display =
      [ascii! "P256", ascii! "P384", ascii! "P521", ascii! "secp256k1", ascii! "secp256k1_3iso", ascii! "bls12381_g1",
        ascii! "bls12381_g1_11iso", ascii! "curve25519", ascii! "curve448", ascii! "edwards25519", ascii! "edwards448"] ∧
    ([P256_PARAMS, P384_PARAMS, P521_PARAMS, SECP256K1_PARAMS, SECP256K1_3ISO_PARAMS, BLS12381G1_PARAMS,
      BLS12381G1_11ISO_PARAMS].map Weierstrass.Params.display ++
    [CURVE25519_PARAMS, CURVE448_PARAMS].map Montgomery.Params.display ++
    [EDWARDS25519_PARAMS, EDWARDS448_PARAMS].map Edwards.Params.display).Nodup := by
  constructor <;> decide +kernel

end Redox.Props
