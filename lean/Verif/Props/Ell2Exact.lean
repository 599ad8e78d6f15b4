import Verif.Props.MapProps

/-!
# C43: Elligator 2 for every `Z`, and its exceptional inputs on curves with `b² ≠ 1`

`Ell2::new` accepts every `Z`. Here the outcome of `map` is determined for all of them (`C43_map_partial` treats the
non-squares, which is what RFC 9380 asks for).
-/

namespace Redox.Props.Map

open Spec Montgomery MLink
variable (p : ℕ) [Fact p.Prime] (e : Curve)

/-- C43 for `b = ±1` and every `Z`: `map u` returns a point of the curve when the right-hand side at the prescribed
abscissa is a square, and panics with "not valid point" when it is not. -/
theorem _root_.Redox.Props.C43_any_z (he : MCurve p e) (hb : val p e.b ^ 2 = 1) (hs : p % 4 = 3 ∨ p % 8 = 5)
    (z u : FpElt) (hz : Canon p z) (hu : Canon p u) (m : Ell2) (hm : Ell2.new e z = R.ok m) :
    (IsSquare (mrhs (val p e.a) (val p e.b) (ell2X (val p e.a) (val p e.b) (val p z) (val p u))) →
      ∃ P, m.map u = R.ok P ∧ P.e = e ∧ e.isOnCurve P = R.ok true ∧ Canon p P.c.x ∧ Canon p P.c.y ∧ P.c.z = ⟨1, ⟨p⟩⟩ ∧
        val p P.c.x = val p e.b * ell2X (val p e.a) (val p e.b) (val p z) (val p u)) ∧
    (¬ IsSquare (mrhs (val p e.a) (val p e.b) (ell2X (val p e.a) (val p e.b) (val p z) (val p u))) →
      m.map u = R.panic .notValidPoint) := by
  classical
  have : Fact (2 < p) := ⟨MLink.two_lt_of he⟩
  rw [ell2_new (MLink.ea he) (MLink.eb he)] at hm
  split_ifs at hm with hok
  rw [R.ok.injEq] at hm
  subst hm
  have hb0 := hok.2
  obtain ⟨a, ha⟩ : ∃ a, a = val p e.a := ⟨_, rfl⟩
  obtain ⟨b, hb'⟩ : ∃ b, b = val p e.b := ⟨_, rfl⟩
  rw [← ha, ← hb'] at hok ⊢
  rw [← hb'] at hb hb0
  have hinv : b⁻¹ = b := by field_simp; linear_combination -hb
  obtain ⟨odd, dec, t, x1, gx1, x, y2, ht, hx1, hg, hodd, hx, hy2, hmap⟩ :=
    ell2_map (e := e) hs he.field (MLink.eb he) (val p z) (a * b) (b⁻¹ ^ 2) (val p u)
  rw [← hb'] at hmap
  have ht1 : t + 1 ≠ 0 := by
    rw [ht]; split_ifs with h
    · simp
    · intro h'; exact h (by linear_combination h')
  have hab : a / b = a * b := by rw [div_eq_mul_inv, hinv]
  have hx1s : x1 = ell2X1 a b (val p z) (val p u) := by
    unfold ell2X1
    rw [hx1, ht, hab]
    by_cases h : val p z * val p u ^ 2 = -1
    · rw [if_pos h, if_pos (by rw [h]; ring)]; simp
    · rw [if_neg h, if_neg (fun h' => h (by linear_combination h')), div_eq_mul_inv, add_comm]
  have hgs : gx1 = mrhs a b x1 := by
    unfold mrhs; rw [hg, hab, inv_pow, div_eq_mul_inv]; ring
  have hxs : x = ell2X a b (val p z) (val p u) := by
    unfold ell2X
    rw [← hx1s, ← hgs, hx, hab]
    by_cases h : odd
    · rw [if_pos h, if_pos (hodd.1 h)]
    · rw [if_neg h, if_neg (fun h' => h (hodd.2 h'))]
  have hid := MapId.ell2_id (A := a * b) (B := b⁻¹ ^ 2) ht1
  rw [← hx1] at hid
  have hy : y2 = x ^ 3 + a * b * x ^ 2 + b⁻¹ ^ 2 * x := by
    rw [hy2, hx]
    by_cases h : odd
    · rw [if_pos h, if_pos h, hg]
    · rw [if_neg h, if_neg h, hg]; exact hid.symm
  have hym : y2 = mrhs a b x := by
    unfold mrhs; rw [hy, hab, inv_pow, div_eq_mul_inv]; ring
  rw [← hxs, ← hym]
  set Y := oddSign odd (sqrtZ y2) with hY
  have heq : b * (Y * b) ^ 2 = (x * b) ^ 3 + a * (x * b) ^ 2 + x * b ↔ Y ^ 2 = y2 := by
    rw [hinv] at hy
    constructor
    · intro h
      have h3 : b ^ 3 * (Y ^ 2 - y2) = 0 := by
        linear_combination h - b ^ 3 * hy - (a * x ^ 2 * b ^ 2 + b * x * (b ^ 2 + 1)) * hb
      exact sub_eq_zero.1 ((mul_eq_zero.1 h3).resolve_left (pow_ne_zero 3 hb0))
    · intro hY2
      linear_combination b ^ 3 * hY2 + b ^ 3 * hy + (a * x ^ 2 * b ^ 2 + b * x * (b ^ 2 + 1)) * hb
  have hnew := MLink.newPoint_pt he (x * b) (Y * b)
  rw [← ha, ← hb'] at hnew
  constructor
  · intro hsq
    have hY2 : Y ^ 2 = y2 := by
      have : Y ^ 2 = sqrtZ y2 ^ 2 := by rw [hY]; unfold oddSign; split_ifs <;> ring
      rw [this, pow_two, sqrtZ_sq hs hsq]
    rw [if_pos (heq.2 hY2)] at hnew
    refine ⟨pt e (x * b) (Y * b) 1, ?_, rfl, ?_, canon_el _, canon_el _, ?_, ?_⟩
    · rw [hz.eq_el, hu.eq_el]; rw [hmap, hnew]
    · rw [isOnCurve_pt (MLink.ea he) (MLink.eb he), ← ha, ← hb', decide_eq_true (by linear_combination heq.2 hY2)]
    · simp only [pt, el, cast_one_int]
    · simp only [pt, val_el]; rw [mul_comm]
  · intro hsq
    rw [if_neg (fun h => hsq ⟨Y, by rw [← heq.1 h]; ring⟩)] at hnew
    rw [hz.eq_el, hu.eq_el]; rw [hmap, hnew]

/-- C43 is refuted for `b = ±1` and every square `Z`: `map u` panics exactly for the inputs with `Z u² ∉ {0, -1}` whose
first candidate does not give a square. -/
theorem _root_.Redox.Props.C43_square_z (he : MCurve p e) (hb : val p e.b ^ 2 = 1) (hs : p % 4 = 3 ∨ p % 8 = 5)
    (z u : FpElt) (hz : Canon p z) (hzs : IsSquare (val p z)) (hu : Canon p u) (m : Ell2) (hm : Ell2.new e z = R.ok m) :
    m.map u = R.panic .notValidPoint ↔
      val p z * val p u ^ 2 ≠ 0 ∧ val p z * val p u ^ 2 ≠ -1 ∧
        ¬ IsSquare (mrhs (val p e.a) (val p e.b) (ell2X1 (val p e.a) (val p e.b) (val p z) (val p u))) := by
  classical
  obtain ⟨h1, h2⟩ := C43_any_z p e he hb hs z u hz hu m hm
  have hb0 : val p e.b ≠ 0 := fun h => by rw [h] at hb; simp at hb
  have key : IsSquare (mrhs (val p e.a) (val p e.b) (ell2X (val p e.a) (val p e.b) (val p z) (val p u))) ↔
      ¬ (val p z * val p u ^ 2 ≠ 0 ∧ val p z * val p u ^ 2 ≠ -1 ∧
        ¬ IsSquare (mrhs (val p e.a) (val p e.b) (ell2X1 (val p e.a) (val p e.b) (val p z) (val p u)))) := by
    generalize val p e.a = a at *
    generalize val p e.b = b at *
    generalize val p z = z' at *
    generalize val p u = u' at *
    by_cases hg : IsSquare (mrhs a b (ell2X1 a b z' u'))
    · have hX : ell2X a b z' u' = ell2X1 a b z' u' := if_pos hg
      rw [hX]; exact ⟨fun _ h => h.2.2 hg, fun _ => hg⟩
    · have hX : ell2X a b z' u' = -(ell2X1 a b z' u') - a / b := if_neg hg
      have hm0 : IsSquare (mrhs a b 0) := by
        have : mrhs a b 0 = 0 := by unfold mrhs; ring
        rw [this]; exact IsSquare.zero
      by_cases t0 : z' * u' ^ 2 = 0
      · have hX0 : ell2X a b z' u' = 0 := by
          rw [hX]; unfold ell2X1
          rw [t0, if_neg (by simp)]; ring
        rw [hX0]; exact ⟨fun _ h => h.1 t0, fun _ => hm0⟩
      by_cases t1 : z' * u' ^ 2 = -1
      · have hX0 : ell2X a b z' u' = 0 := by
          rw [hX]; unfold ell2X1
          rw [t1, if_pos (by ring)]; ring
        rw [hX0]; exact ⟨fun _ h => h.2.1 t1, fun _ => hm0⟩
      refine ⟨fun h => absurd h ?_, fun h => absurd ⟨t0, t1, hg⟩ h⟩
      have hne : 1 + z' * u' ^ 2 ≠ 0 := fun h => t1 (by linear_combination h)
      have hx1 : ell2X1 a b z' u' = -(a / b) * (z' * u' ^ 2 + 1)⁻¹ := by
        unfold ell2X1; rw [if_neg hne, div_eq_mul_inv _ (1 + _), add_comm]
      have hid := MapId.ell2_id (A := a / b) (B := (b ^ 2)⁻¹) (t := z' * u' ^ 2) (by rw [add_comm]; exact hne)
      rw [← hx1] at hid
      have e1 : mrhs a b (ell2X a b z' u') = z' * u' ^ 2 * mrhs a b (ell2X1 a b z' u') := by
        rw [hX]; unfold mrhs; rw [div_eq_mul_inv _ (b ^ 2), div_eq_mul_inv _ (b ^ 2)]
        linear_combination hid
      rw [e1]
      rintro ⟨r, hr⟩
      obtain ⟨s, hs'⟩ := hzs
      have hs0 : s * u' ≠ 0 := by
        intro h
        apply t0
        rw [hs']; linear_combination (s * u') * h
      apply hg
      refine ⟨r / (s * u'), ?_⟩
      have hs1 : s ≠ 0 := left_ne_zero_of_mul hs0
      have hu1 : u' ≠ 0 := right_ne_zero_of_mul hs0
      have hr' : s * s * u' ^ 2 * mrhs a b (ell2X1 a b z' u') = r * r := by rw [← hs']; exact hr
      field_simp
      linear_combination hr'
  rw [← not_iff_not]
  constructor
  · intro h
    rw [← key]
    by_contra h'
    exact h (h2 h')
  · intro h
    rw [← key] at h
    obtain ⟨P, hP, -⟩ := h1 h
    rw [hP]; exact fun h => by cases h

/-- C43 on curves with `b² ≠ 1`, for the inputs that `C43_refuted_b` leaves out (`Z u² = 0` or `Z u² = -1`): `map u`
returns the point `(0, 0)` when `-a/b` is a non-square, and panics with "not valid point" when it is a square. -/
theorem _root_.Redox.Props.C43_refuted_b_ends (he : MCurve p e) (hb : val p e.b ^ 2 ≠ 1) (hs : p % 4 = 3 ∨ p % 8 = 5)
    (z u : FpElt) (hz : Canon p z) (hu : Canon p u) (ht : val p z * val p u ^ 2 = 0 ∨ val p z * val p u ^ 2 = -1)
    (m : Ell2) (hm : Ell2.new e z = R.ok m) :
    (IsSquare (-(val p e.a) / val p e.b) → m.map u = R.panic .notValidPoint) ∧
    (¬ IsSquare (-(val p e.a) / val p e.b) → m.map u = R.ok ⟨e, ⟨⟨0, ⟨p⟩⟩, ⟨0, ⟨p⟩⟩, ⟨1, ⟨p⟩⟩⟩⟩) := by
  classical
  have : Fact (2 < p) := ⟨MLink.two_lt_of he⟩
  rw [ell2_new (MLink.ea he) (MLink.eb he)] at hm
  split_ifs at hm with hok
  rw [R.ok.injEq] at hm
  subst hm
  obtain ⟨ha0, hb0⟩ := hok
  obtain ⟨a, ha⟩ : ∃ a, a = val p e.a := ⟨_, rfl⟩
  obtain ⟨b, hb'⟩ : ∃ b, b = val p e.b := ⟨_, rfl⟩
  rw [← ha] at ha0 ⊢
  rw [← hb'] at hb0 hb ⊢
  obtain ⟨odd, dec, t, x1, gx1, x, y2, htt, hx1, hg, hodd, hx, hy2, hmap⟩ :=
    ell2_map (e := e) hs he.field (MLink.eb he) (val p z) (a * b) (b⁻¹ ^ 2) (val p u)
  rw [← hb'] at hmap
  have t0 : t = 0 := by
    rw [htt]; split_ifs with h
    · rfl
    · exact ht.resolve_right h
  subst t0
  have hx1' : x1 = -(a * b) := by rw [hx1]; simp
  have hgx : gx1 = -a / b := by rw [hg, hx1']; field_simp; ring
  rw [hgx] at hodd
  rw [← hodd]
  have hnew := MLink.newPoint_pt he (x * b) (oddSign odd (sqrtZ y2) * b)
  rw [← ha, ← hb'] at hnew
  rw [hnew, ← hz.eq_el, ← hu.eq_el] at hmap
  constructor
  · intro ho
    rw [hmap, if_neg]
    intro h
    rw [if_pos ho] at hx hy2
    have hsq := hodd.1 ho
    have hY2 : oddSign odd (sqrtZ y2) ^ 2 = y2 := by
      have : oddSign odd (sqrtZ y2) ^ 2 = sqrtZ y2 ^ 2 := by unfold oddSign; split_ifs <;> ring
      rw [this, pow_two, sqrtZ_sq hs (by rw [hy2, hgx]; exact hsq)]
    rw [mul_pow, hY2, hy2, hgx, hx, hx1'] at h
    have hz' : a ^ 3 * b ^ 4 * (b ^ 2 - 1) = 0 := by
      have hab : -a / b * b = -a := by field_simp
      linear_combination h - b ^ 2 * hab
    exact mul_ne_zero (mul_ne_zero (pow_ne_zero 3 ha0) (pow_ne_zero 4 hb0)) (sub_ne_zero.2 hb) hz'
  · intro ho
    rw [if_neg ho] at hx hy2
    have hx0 : x = 0 := by rw [hx, hx1']; ring
    have hy0 : y2 = 0 := by rw [hy2, zero_mul]
    have hr0 : sqrtZ (0 : ZMod p) = 0 := by
      have := sqrtZ_sq hs (p := p) IsSquare.zero
      exact mul_self_eq_zero.1 this
    have hY0 : oddSign odd (sqrtZ y2) = 0 := by
      rw [hy0, hr0]; unfold oddSign; simp
    rw [hmap, hY0, hx0, if_pos (by ring)]
    simp only [pt, el, zero_mul, cast_one_int, ZMod.cast_zero]

/-- Concrete cases: on `y² = x³ + 4x² + x` over GF(7) with the square `Z = 1` the input 1 panics and the input 0 does not;
on `2y² = x³ + 3x² + x` over GF(7) with `Z = 3` the input 0 panics, and on `2y² = x³ + x² + x` it gives `(0, 0)`. -/
example : (do (← Ell2.new toyM4 ⟨1, ⟨7⟩⟩).map ⟨1, ⟨7⟩⟩) = R.panic .notValidPoint ∧
    (do (← Ell2.new toyM4 ⟨1, ⟨7⟩⟩).map ⟨0, ⟨7⟩⟩).isOk ∧
    (do (← Ell2.new toyM2 ⟨3, ⟨7⟩⟩).map ⟨0, ⟨7⟩⟩) = R.panic .notValidPoint ∧
    (do (← Ell2.new { toyM2 with a := ⟨1, ⟨7⟩⟩ } ⟨3, ⟨7⟩⟩).map ⟨0, ⟨7⟩⟩) =
      R.ok ⟨{ toyM2 with a := ⟨1, ⟨7⟩⟩ }, ⟨⟨0, ⟨7⟩⟩, ⟨0, ⟨7⟩⟩, ⟨1, ⟨7⟩⟩⟩⟩ := by
  refine ⟨?_, ?_, ?_, ?_⟩ <;> decide +kernel

end Redox.Props.Map
