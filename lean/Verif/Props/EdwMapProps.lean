import Verif.Props.BirationalProps
import Verif.Props.Iso448Props
import Verif.Props.MapProps

/-!
# C44: Elligator 2 on Edwards curves
-/

set_option linter.unusedSectionVars false

namespace Redox.Props.EdMap

open Spec Edw Edwards

theorem new_ok {e : Edwards.Curve} {z : FpElt} {r : RationalMap} {M : Ell2} (h : Ell2.new e z (some r) = R.ok M) :
    M.ratmap = r ∧ ∃ mt, r.codomain = R.ok mt ∧ Montgomery.Ell2.new mt z = R.ok M.mapToCurve := by
  unfold Ell2.new at h
  obtain ⟨d, hd, h1⟩ := R.bind_eq_ok.1 h
  split_ifs at h1 with hne
  obtain ⟨mt, hmt, h2⟩ := R.bind_eq_ok.1 h1
  obtain ⟨el2, hel, h3⟩ := R.bind_eq_ok.1 h2
  simp only [R.pure_eq, R.ok.injEq] at h3
  subst h3
  exact ⟨rfl, mt, hmt, hel⟩

section
variable (p : ℕ) [Fact p.Prime]

/-- C44 with the map of edwards25519: for every `u`, `map(u)` does not panic and returns a representative of the Edwards point that
corresponds to the Elligator 2 image on the Montgomery curve, for every non-square `Z`. -/
theorem _root_.Redox.Props.C44_birational (m : Ed2Mt25519) [he0 : ECurve p m.e0] (h : Ed2MtOK p m) (hs : p % 4 = 3 ∨ p % 8 = 5)
    (z u : FpElt) (hz : Canon p z) (hzn : ¬ IsSquare (val p z)) (hu : Canon p u) (M : Ell2)
    (hM : Ell2.new m.e0 z (some m.toRationalMap) = R.ok M) :
    ∃ A y, ∃ hn : (mGroup p m.e1).Nonsingular (ell2X (val p m.e1.a) 1 (val p z) (val p u)) y,
      Ell2Sign (val p m.e1.a) (val p z) (val p u) y ∧
      Corresponds (val p m.invsqr_d) A (.some _ y hn : (mGroup p m.e1).Point) ∧ EReturns p m.e0 (M.map u) A := by
  obtain ⟨hr, mt, hmt, hel⟩ := new_ok hM
  simp only [Ed2Mt25519.toRationalMap, R.ok.injEq] at hmt
  subst hmt
  obtain ⟨P, h1, h2, h3, h4, h5, h6, -⟩ := C43_map_partial p m.e1 h.e1 (by rw [h.b_one]; ring) hs z u hz hzn hu _ hel
  obtain ⟨y, hn, hsg, Q, hQ, hQd⟩ := C43_group_partial p m.e1 h.e1 h.b_one hs z u hz hzn hu _ hel
  rw [h1, R.ok.injEq] at hQ
  subst hQ
  obtain ⟨φ, hφ, -, hpull⟩ := C47_isomorphism_partial p m h
  refine ⟨φ.symm (.some _ y hn), y, hn, hsg, ?_, ?_⟩
  · have := hφ (φ.symm (.some _ y hn))
    rwa [AddEquiv.apply_symm_apply] at this
  · rw [Ell2.map, hr, h1, R.ok_bind]
    exact hpull P _ hQd (fun _ => by rw [h6]; rfl)

/-- C44 with the map of edwards448: for every `u` with `Z u² ∉ {0, -1}`, `map(u)` does not panic and returns a representative of the
image under the dual 4-isogeny of the Elligator 2 image on the Montgomery curve, for every non-square `Z`. Partial: the remaining
`u` are the subject of `C44_refuted_448`. -/
theorem _root_.Redox.Props.C44_isogeny_partial (m : Ed4isoMt448) [he0 : ECurve p m.e0] (h : Ed4OK p m)
    (hs : p % 4 = 3 ∨ p % 8 = 5) (z u : FpElt) (hz : Canon p z) (hzn : ¬ IsSquare (val p z)) (hu : Canon p u)
    (hu0 : val p u ≠ 0) (hu1 : val p z * val p u ^ 2 ≠ -1) (M : Ell2)
    (hM : Ell2.new m.e0 z (some m.toRationalMap) = R.ok M) :
    ∃ A y, ∃ hn : (mGroup p m.e1).Nonsingular (ell2X (val p m.e1.a) 1 (val p z) (val p u)) y,
      Ell2Sign (val p m.e1.a) (val p z) (val p u) y ∧ Pull448 A (.some _ y hn : (mGroup p m.e1).Point) ∧ EReturns p m.e0 (M.map u) A := by
  obtain ⟨hr, mt, hmt, hel⟩ := new_ok hM
  simp only [Ed4isoMt448.toRationalMap, R.ok.injEq] at hmt
  subst hmt
  obtain ⟨y, hn, hsg, Q, hQ, hQd⟩ := C43_group_partial p m.e1 h.e1 h.b_one hs z u hz hzn hu _ hel
  have ha : val p m.e1.a ≠ 0 := by
    intro h0
    haveI : Fact (2 < p) := ⟨ELink.two_lt_of he0.params⟩
    rw [MLink.ell2_new (MLink.ea h.e1) (MLink.eb h.e1)] at hel
    split_ifs at hel with hok
    exact hok.1 h0
  have hx : ell2X (val p m.e1.a) 1 (val p z) (val p u) ≠ 0 := by
    have hz0 : val p z ≠ 0 := fun h => hzn (h ▸ IsSquare.zero)
    have ht0 : val p z * val p u ^ 2 ≠ 0 := mul_ne_zero hz0 (pow_ne_zero _ hu0)
    have ht1 : 1 + val p z * val p u ^ 2 ≠ 0 := fun h => hu1 (by linear_combination h)
    unfold ell2X ell2X1
    rw [if_neg ht1, div_one]
    split_ifs
    · exact div_ne_zero (neg_ne_zero.2 ha) ht1
    · have : -(-val p m.e1.a / (1 + val p z * val p u ^ 2)) - val p m.e1.a =
          -val p m.e1.a * (val p z * val p u ^ 2) / (1 + val p z * val p u ^ 2) := by field_simp; ring
      rw [this]
      exact div_ne_zero (mul_ne_zero (neg_ne_zero.2 ha) ht0) ht1
  obtain ⟨A, hA, hAr⟩ := C48_pull_partial p m h Q _ hQd (fun hn h => hx (by
    rw [WeierstrassCurve.Affine.Point.some.injEq] at h; exact h.1))
  exact ⟨A, y, hn, hsg, hA, by rw [Ell2.map, hr, hQ, R.ok_bind]; exact hAr⟩

end

open Inst

theorem canon_lit {p : ℕ} {n : ℤ} (h0 : 0 ≤ n) (h1 : n < p) : Canon p ⟨n, ⟨p⟩⟩ := ⟨rfl, h0, h1⟩

/-- C44 for `EDWARDS25519`: `Ell2::new(EDWARDS25519.get(), 2, Some(edwards25519_to_curve25519()))` succeeds, and for every `u` of the
field `map(u)` does not panic and returns a representative of a point of the curve, the one corresponding to the Elligator 2
image on `CURVE25519`. -/
theorem _root_.Redox.Props.C44_edwards25519 : ∃ M,
    (do
      let e ← EDWARDS25519
      let r ← edwards25519_to_curve25519
      Ell2.new e (← e.getField.fromPrim 2) (some r.toRationalMap)) = R.ok M ∧
    ∀ u, Canon curve25519_p u → ∃ A y, ∃ hn : (mGroup curve25519_p curve25519).Nonsingular (ell2X 486662 1 2 (val curve25519_p u)) y,
      Ell2Sign 486662 2 (val curve25519_p u) y ∧ Corresponds (val curve25519_p Bir.map25519.invsqr_d) A (.some _ y hn : (mGroup curve25519_p curve25519).Point) ∧
      EReturns curve25519_p edwards25519 (M.map u) A := by
  have hz : Canon curve25519_p ⟨2, ⟨curve25519_p⟩⟩ := canon_lit (by decide +kernel) (by decide +kernel)
  have hzn : ¬ IsSquare (val curve25519_p ⟨2, ⟨curve25519_p⟩⟩) := by
    have := NoRoot.not_isSquare_of_pow (p := curve25519_p) 2 (by decide +kernel) (by decide +kernel)
    simpa [Spec.val] using this
  have hnew : ∃ M, Ell2.new edwards25519 ⟨2, ⟨curve25519_p⟩⟩ (some Bir.map25519.toRationalMap) = R.ok M := by
    refine ⟨⟨Bir.map25519.toRationalMap, ⟨curve25519, ⟨2, ⟨curve25519_p⟩⟩, ⟨486662, ⟨curve25519_p⟩⟩, ⟨1, ⟨curve25519_p⟩⟩⟩⟩, ?_⟩
    have h1 : Montgomery.Ell2.new curve25519 ⟨2, ⟨curve25519_p⟩⟩ =
      R.ok ⟨curve25519, ⟨2, ⟨curve25519_p⟩⟩, ⟨486662, ⟨curve25519_p⟩⟩, ⟨1, ⟨curve25519_p⟩⟩⟩ := by decide +kernel
    simp [Ell2.new, Ed2Mt25519.toRationalMap, Bir.map25519, h1]
  obtain ⟨M, hM⟩ := hnew
  refine ⟨M, ?_, fun u hu => ?_⟩
  · rw [edwards25519_eq, R.ok_bind, Bir.map25519_eq, R.ok_bind]
    have : edwards25519.getField.fromPrim 2 = R.ok ⟨2, ⟨curve25519_p⟩⟩ := by decide +kernel
    rw [this, R.ok_bind, hM]
  · have := C44_birational curve25519_p Bir.map25519 Bir.map25519_ok (Or.inr (by decide +kernel)) _ u hz hzn hu M hM
    have ha : val curve25519_p Bir.map25519.e1.a = 486662 := by simp [Spec.val, Bir.map25519, curve25519]
    have h2 : val curve25519_p ⟨2, ⟨curve25519_p⟩⟩ = 2 := by simp [Spec.val]
    rw [ha, h2] at this
    exact this

/-- C44 for `EDWARDS448`: `Ell2::new(EDWARDS448.get(), -1, Some(edwards448_to_curve448()))` succeeds, and for every `u` of the field
other than `0`, `1` and `-1`, `map(u)` does not panic and returns a representative of a point of the curve, the image under the dual
4-isogeny of the Elligator 2 image on `CURVE448`. Partial: the three other inputs are the subject of `C44_refuted_448`. -/
theorem _root_.Redox.Props.C44_edwards448_partial : ∃ M,
    (do
      let e ← EDWARDS448
      let r ← edwards448_to_curve448
      Ell2.new e (← e.getField.fromPrim (-1)) (some r.toRationalMap)) = R.ok M ∧
    ∀ u, Canon curve448_p u → val curve448_p u ≠ 0 → val curve448_p u ≠ 1 → val curve448_p u ≠ -1 →
      ∃ A y, ∃ hn : (mGroup curve448_p curve448).Nonsingular (ell2X 156326 1 (-1) (val curve448_p u)) y,
      Ell2Sign 156326 (-1) (val curve448_p u) y ∧ Pull448 A (.some _ y hn : (mGroup curve448_p curve448).Point) ∧ EReturns curve448_p edwards448 (M.map u) A := by
  have hz : Canon curve448_p ⟨curve448_p - 1, ⟨curve448_p⟩⟩ := canon_lit (by decide +kernel) (by decide +kernel)
  have h2 : val curve448_p ⟨curve448_p - 1, ⟨curve448_p⟩⟩ = -1 := by simp [Spec.val]
  have hzn : ¬ IsSquare (val curve448_p ⟨curve448_p - 1, ⟨curve448_p⟩⟩) := by
    have := NoRoot.not_isSquare_of_pow (p := curve448_p) (curve448_p - 1) (by decide +kernel) (by decide +kernel)
    have e : ((curve448_p - 1 : ℕ) : ZMod curve448_p) = -1 := by
      rw [Nat.cast_sub (by decide +kernel)]; simp
    rw [h2, ← e]; exact this
  have hnew : ∃ M, Ell2.new edwards448 ⟨curve448_p - 1, ⟨curve448_p⟩⟩ (some Iso4.map448.toRationalMap) = R.ok M := by
    refine ⟨⟨Iso4.map448.toRationalMap, ⟨curve448, ⟨curve448_p - 1, ⟨curve448_p⟩⟩, ⟨156326, ⟨curve448_p⟩⟩, ⟨1, ⟨curve448_p⟩⟩⟩⟩, ?_⟩
    have h1 : Montgomery.Ell2.new curve448 ⟨curve448_p - 1, ⟨curve448_p⟩⟩ =
      R.ok ⟨curve448, ⟨curve448_p - 1, ⟨curve448_p⟩⟩, ⟨156326, ⟨curve448_p⟩⟩, ⟨1, ⟨curve448_p⟩⟩⟩ := by decide +kernel
    simp [Ell2.new, Ed4isoMt448.toRationalMap, Iso4.map448, h1]
  obtain ⟨M, hM⟩ := hnew
  refine ⟨M, ?_, fun u hu u0 u1 u2 => ?_⟩
  · rw [edwards448_eq, R.ok_bind, Iso4.map448_eq, R.ok_bind]
    have : edwards448.getField.fromPrim (-1) = R.ok ⟨curve448_p - 1, ⟨curve448_p⟩⟩ := by decide +kernel
    rw [this, R.ok_bind, hM]
  · have hu1 : val curve448_p ⟨curve448_p - 1, ⟨curve448_p⟩⟩ * val curve448_p u ^ 2 ≠ -1 := by
      rw [h2]
      intro h
      have : (val curve448_p u - 1) * (val curve448_p u + 1) = 0 := by linear_combination -h
      rcases mul_eq_zero.1 this with h | h
      · exact u1 (by linear_combination h)
      · exact u2 (by linear_combination h)
    have := C44_isogeny_partial curve448_p Iso4.map448 Iso4.map448_ok (Or.inl (by decide +kernel)) _ u hz hzn hu u0 hu1 M hM
    have ha : val curve448_p Iso4.map448.e1.a = 156326 := by simp [Spec.val, Iso4.map448, curve448]
    rw [ha, h2] at this
    exact this

/-- C44 is refuted for `EDWARDS448`: for the inputs `0`, `1` and `-1` the result of `map` is the quadruple `(0 : 0 : 0 : 0)`, which
stands for no point of the curve. -/
theorem _root_.Redox.Props.C44_refuted_448 (u : FpElt)
    (hu : u = ⟨0, ⟨curve448_p⟩⟩ ∨ u = ⟨1, ⟨curve448_p⟩⟩ ∨ u = ⟨curve448_p - 1, ⟨curve448_p⟩⟩) :
    ∃ P, (do
      let e ← EDWARDS448
      let r ← edwards448_to_curve448
      (← Ell2.new e (← e.getField.fromPrim (-1)) (some r.toRationalMap)).map u) = R.ok P ∧
      P.c.x.isZero ∧ P.c.y.isZero ∧ P.c.t.isZero ∧ P.c.z.isZero ∧ ¬ ∃ A, EDenotes curve448_p edwards448 P A := by
  refine ⟨⟨edwards448, ⟨⟨0, ⟨curve448_p⟩⟩, ⟨0, ⟨curve448_p⟩⟩, ⟨0, ⟨curve448_p⟩⟩, ⟨0, ⟨curve448_p⟩⟩⟩⟩, ?_, rfl, rfl, rfl, rfl, ?_⟩
  · rcases hu with rfl | rfl | rfl <;> decide +kernel
  · rintro ⟨A, hA⟩
    exact hA.2.2.2.2.2.1 (by simp [Spec.val])

/-- The hypotheses are met, and the ordinary case is not the identity: the image of `2` on both curves. -/
example : (do
      let e ← EDWARDS25519
      let r ← edwards25519_to_curve25519
      let P ← (← Ell2.new e (← e.getField.fromPrim 2) (some r.toRationalMap)).map (← e.getField.fromPrim 2)
      return !P.isZero) = R.ok true ∧
    (do
      let e ← EDWARDS448
      let r ← edwards448_to_curve448
      let P ← (← Ell2.new e (← e.getField.fromPrim (-1)) (some r.toRationalMap)).map (← e.getField.fromPrim 2)
      return !P.isZero) = R.ok true := ⟨by decide +kernel, by decide +kernel⟩

end Redox.Props.EdMap
