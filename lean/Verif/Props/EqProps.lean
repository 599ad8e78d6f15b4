import Verif.Props.WeierCodec
import Verif.Props.MontCodec
import Verif.Props.EdwCodec
import Verif.Props.InstanceProps

/-!
# C72: `==` on points

On the points of one curve `==` is an equivalence relation and no operation of the API tells equal points apart. Points of
different curves over one field are different; comparing points of curves over different fields panics.
-/

set_option maxRecDepth 100000

namespace Redox.Props.Eq

open Spec Redox.Inst

theorem mul_ne {p q : ℕ} {a b : FpElt} (h : p ≠ q) (ha : Canon p a) (hb : Canon q b) :
    a.mul b = R.panic .differentFields := by
  have : (a.f == b.f) = false := by
    rw [ha.1, hb.1]; simpa using h
  simp [FpElt.mul, doIfEq, this]

section
variable {p q : ℕ} [Fact p.Prime] [Fact q.Prime]

/-! ## Weierstrass -/

section
open Weierstrass WLink

/-- C72, points of two Weierstrass curves. With different fields the comparison panics; with one field and different curves
(in any parameter) the answer is false. -/
theorem _root_.Redox.Props.C72_weierstrass_partial (e e' : Curve) (P Q : Point) (A : (wGroup p e).Point)
    (B : (wGroup q e').Point) (hP : WDenotes p e P A) (hQ : WDenotes q e' Q B) :
    (p ≠ q → P.eq Q = R.panic .differentFields) ∧ (p = q → e ≠ e' → P.eq Q = R.ok false) := by
  refine ⟨fun h => ?_, ?_⟩
  · have := mul_ne h hP.2.1 hQ.2.2.2.1
    simp only [Point.eq, R.fmul, R.ok_bind, this, R.panic_bind]
  · rintro rfl hne
    obtain ⟨x, y, z, rfl, hA⟩ := denotes_iff.1 hP
    obtain ⟨x', y', z', rfl, hB⟩ := denotes_iff.1 hQ
    rw [eq_pt]
    simp [hne]

/-- C72 on one Weierstrass curve: `==` is reflexive, symmetric and transitive. -/
theorem _root_.Redox.Props.C72_weierstrass_equiv (e : Curve) (P Q T : Point) (hP : ∃ A, WDenotes p e P A)
    (hQ : ∃ A, WDenotes p e Q A) (hT : ∃ A, WDenotes p e T A) :
    P.eq P = R.ok true ∧ P.eq Q = Q.eq P ∧ (P.eq Q = R.ok true → Q.eq T = R.ok true → P.eq T = R.ok true) := by
  obtain ⟨A, hA⟩ := hP
  obtain ⟨B, hB⟩ := hQ
  obtain ⟨C, hC⟩ := hT
  simp only [C27_eq p e _ _ _ _ hA hA, C27_eq p e _ _ _ _ hA hB, C27_eq p e _ _ _ _ hB hA, C27_eq p e _ _ _ _ hB hC,
    C27_eq p e _ _ _ _ hA hC, R.ok.injEq, decide_eq_true_eq, eq_comm (a := B) (b := A), true_and]
  exact fun h h' => h.trans h'

/-- C72 on one Weierstrass curve: equal points are interchangeable in every operation. -/
theorem _root_.Redox.Props.C72_weierstrass_congr (e : Curve) (he : WCurve p e) (h2 : NoTwoTorsion p e)
    (hr : Big.bits e.r < usizeMod) (P P' Q Q' : Point) (hP : ∃ A, WDenotes p e P A) (hP' : ∃ A, WDenotes p e P' A)
    (hQ : ∃ A, WDenotes p e Q A) (hQ' : ∃ A, WDenotes p e Q' A) (h : P.eq P' = R.ok true) (h' : Q.eq Q' = R.ok true) :
    (do (← P.add Q).eq (← P'.add Q')) = R.ok true ∧ (do (← P.sub Q).eq (← P'.sub Q')) = R.ok true ∧
    (do (← P.neg).eq (← P'.neg)) = R.ok true ∧ P.isZero = P'.isZero ∧ (∀ c, P.encode c = P'.encode c) ∧
    ∀ prof k, CanonScalar e.r k → (k.k ≠ 0 ∨ prof = .release) →
      (do (← P.mul prof k).eq (← P'.mul prof k)) = R.ok true := by
  obtain ⟨A, hA⟩ := hP
  obtain ⟨A', hA'⟩ := hP'
  obtain ⟨B, hB⟩ := hQ
  obtain ⟨B', hB'⟩ := hQ'
  have hAA := C27_eq p e _ _ _ _ hA hA'
  have hBB := C27_eq p e _ _ _ _ hB hB'
  rw [h, R.ok.injEq, eq_comm, decide_eq_true_eq] at hAA
  rw [h', R.ok.injEq, eq_comm, decide_eq_true_eq] at hBB
  subst hAA hBB
  obtain ⟨⟨S, hS, dS⟩, ⟨D, hD, dD⟩, ⟨N, hN, dN⟩⟩ := C23_group_law p e he h2 P Q A B hA hB
  obtain ⟨⟨S', hS', dS'⟩, ⟨D', hD', dD'⟩, ⟨N', hN', dN'⟩⟩ := C23_group_law p e he h2 P' Q' A B hA' hB'
  refine ⟨?_, ?_, ?_, ?_, fun c => (C30_encode p e he c P P' A A hA hA').1 rfl, fun prof k hk h0 => ?_⟩
  · simp only [hS, hS', R.ok_bind, C27_eq p e _ _ _ _ dS dS', decide_true]
  · simp only [hD, hD', R.ok_bind, C27_eq p e _ _ _ _ dD dD', decide_true]
  · simp only [hN, hN', R.ok_bind, C27_eq p e _ _ _ _ dN dN', decide_true]
  · rw [C27_is_zero p e P A hA, C27_is_zero p e P' A hA']
  · obtain ⟨M, hM, dM⟩ := C25_mul_partial p e he h2 hr prof P A hA k hk h0
    obtain ⟨M', hM', dM'⟩ := C25_mul_partial p e he h2 hr prof P' A hA' k hk h0
    simp only [hM, hM', R.ok_bind, C27_eq p e _ _ _ _ dM dM', decide_true]

end

/-! ## Montgomery -/

section
open Montgomery MLink Mo

/-- C72, points of two Montgomery curves. -/
theorem _root_.Redox.Props.C72_montgomery_partial (e e' : Curve) (P Q : Point) (A : (mGroup p e).Point)
    (B : (mGroup q e').Point) (hP : MDenotes p e P A) (hQ : MDenotes q e' Q B) :
    (p ≠ q → P.eq Q = R.panic .differentFields) ∧ (p = q → e ≠ e' → P.eq Q = R.ok false) := by
  refine ⟨fun h => ?_, ?_⟩
  · have := mul_ne h hP.2.1 hQ.2.2.2.1
    simp only [Point.eq, R.fmul, R.ok_bind, this, R.panic_bind]
  · rintro rfl hne
    obtain ⟨x, y, z, rfl, hA⟩ := denotes_iff.1 hP
    obtain ⟨x', y', z', rfl, hB⟩ := denotes_iff.1 hQ
    rw [eq_pt]
    simp [hne]

/-- C72 on one Montgomery curve: `==` is reflexive, symmetric and transitive. -/
theorem _root_.Redox.Props.C72_montgomery_equiv (e : Curve) (P Q T : Point) (hP : ∃ A, MDenotes p e P A)
    (hQ : ∃ A, MDenotes p e Q A) (hT : ∃ A, MDenotes p e T A) :
    P.eq P = R.ok true ∧ P.eq Q = Q.eq P ∧ (P.eq Q = R.ok true → Q.eq T = R.ok true → P.eq T = R.ok true) := by
  obtain ⟨A, hA⟩ := hP
  obtain ⟨B, hB⟩ := hQ
  obtain ⟨C, hC⟩ := hT
  simp only [Mo.eq_of_denotes _ _ _ _ hA hA, Mo.eq_of_denotes _ _ _ _ hA hB, Mo.eq_of_denotes _ _ _ _ hB hA,
    Mo.eq_of_denotes _ _ _ _ hB hC, Mo.eq_of_denotes _ _ _ _ hA hC, R.ok.injEq, decide_eq_true_eq,
    eq_comm (a := B) (b := A), true_and]
  exact fun h h' => h.trans h'

/-- C72 on one Montgomery curve: equal points are interchangeable in every operation. -/
theorem _root_.Redox.Props.C72_montgomery_congr (e : Curve) (he : MCurve p e) (hb : val p e.b = 1) (hs : SNotY p e)
    (hr : Big.bits e.r < usizeMod) (P P' Q Q' : Point) (hP : ∃ A, MDenotes p e P A) (hP' : ∃ A, MDenotes p e P' A)
    (hQ : ∃ A, MDenotes p e Q A) (hQ' : ∃ A, MDenotes p e Q' A) (h : P.eq P' = R.ok true) (h' : Q.eq Q' = R.ok true) :
    (do (← P.add Q).eq (← P'.add Q')) = R.ok true ∧ (do (← P.sub Q).eq (← P'.sub Q')) = R.ok true ∧
    (do (← P.neg).eq (← P'.neg)) = R.ok true ∧ P.isZero = P'.isZero ∧ (∀ c, P.encode c = P'.encode c) ∧
    ∀ prof k, CanonScalar e.r k → (k.k ≠ 0 ∨ prof = .release) →
      (do (← P.mul prof k).eq (← P'.mul prof k)) = R.ok true := by
  obtain ⟨A, hA⟩ := hP
  obtain ⟨A', hA'⟩ := hP'
  obtain ⟨B, hB⟩ := hQ
  obtain ⟨B', hB'⟩ := hQ'
  have hAA := Mo.eq_of_denotes _ _ _ _ hA hA'
  have hBB := Mo.eq_of_denotes _ _ _ _ hB hB'
  rw [h, R.ok.injEq, eq_comm, decide_eq_true_eq] at hAA
  rw [h', R.ok.injEq, eq_comm, decide_eq_true_eq] at hBB
  subst hAA hBB
  obtain ⟨⟨S, hS, dS⟩, ⟨D, hD, dD⟩, ⟨N, hN, dN⟩⟩ := C32_group_law_partial p e he hb hs P Q A B hA hB
  obtain ⟨⟨S', hS', dS'⟩, ⟨D', hD', dD'⟩, ⟨N', hN', dN'⟩⟩ := C32_group_law_partial p e he hb hs P' Q' A B hA' hB'
  refine ⟨?_, ?_, ?_, ?_, fun c => (C34_canonical_partial p e he c P P' A A hA hA').1 rfl, fun prof k hk h0 => ?_⟩
  · simp only [hS, hS', R.ok_bind, Mo.eq_of_denotes _ _ _ _ dS dS', decide_true]
  · simp only [hD, hD', R.ok_bind, Mo.eq_of_denotes _ _ _ _ dD dD', decide_true]
  · simp only [hN, hN', R.ok_bind, Mo.eq_of_denotes _ _ _ _ dN dN', decide_true]
  · rw [(C32_eq p e P P A A hA hA).2, (C32_eq p e P' P' A A hA' hA').2]
  · obtain ⟨M, hM, dM⟩ := C33_mul_partial p e he hb hs hr prof P A hA k hk h0
    obtain ⟨M', hM', dM'⟩ := C33_mul_partial p e he hb hs hr prof P' A hA' k hk h0
    simp only [hM, hM', R.ok_bind, Mo.eq_of_denotes _ _ _ _ dM dM', decide_true]

end

/-! ## Edwards -/

section
open Edwards ELink

/-- C72, points of two Edwards curves. -/
theorem _root_.Redox.Props.C72_edwards_partial (e e' : Curve) (P Q : Point) (A : eGroup p e)
    (B : eGroup q e') (hP : EDenotes p e P A) (hQ : EDenotes q e' Q B) :
    (p ≠ q → P.eq Q = R.panic .differentFields) ∧ (p = q → e ≠ e' → P.eq Q = R.ok false) := by
  refine ⟨fun h => ?_, ?_⟩
  · have := mul_ne h hP.2.1 hQ.2.2.2.2.1
    simp only [Point.eq, R.fmul, R.ok_bind, this, R.panic_bind]
  · rintro rfl hne
    obtain ⟨x, y, t, z, rfl, hA⟩ := denotes_iff.1 hP
    obtain ⟨x', y', t', z', rfl, hB⟩ := denotes_iff.1 hQ
    rw [eq_pt]
    simp [hne]

/-- C72 on one Edwards curve: `==` is reflexive, symmetric and transitive. -/
theorem _root_.Redox.Props.C72_edwards_equiv (e : Curve) (P Q T : Point) (hP : ∃ A, EDenotes p e P A)
    (hQ : ∃ A, EDenotes p e Q A) (hT : ∃ A, EDenotes p e T A) :
    P.eq P = R.ok true ∧ P.eq Q = Q.eq P ∧ (P.eq Q = R.ok true → Q.eq T = R.ok true → P.eq T = R.ok true) := by
  obtain ⟨A, hA⟩ := hP
  obtain ⟨B, hB⟩ := hQ
  obtain ⟨C, hC⟩ := hT
  simp only [ELink.eq_of_denotes _ _ _ _ hA hA, ELink.eq_of_denotes _ _ _ _ hA hB, ELink.eq_of_denotes _ _ _ _ hB hA,
    ELink.eq_of_denotes _ _ _ _ hB hC, ELink.eq_of_denotes _ _ _ _ hA hC, R.ok.injEq, decide_eq_true_eq,
    eq_comm (a := B) (b := A), true_and]
  exact fun h h' => h.trans h'

/-- C72 on one Edwards curve: equal points are interchangeable in every operation. -/
theorem _root_.Redox.Props.C72_edwards_congr (e : Curve) [he : ECurve p e] (hs : p % 4 = 3 ∨ p % 8 = 5)
    (hr : Big.bits e.r < usizeMod) (P P' Q Q' : Point) (hP : ∃ A, EDenotes p e P A) (hP' : ∃ A, EDenotes p e P' A)
    (hQ : ∃ A, EDenotes p e Q A) (hQ' : ∃ A, EDenotes p e Q' A) (h : P.eq P' = R.ok true) (h' : Q.eq Q' = R.ok true) :
    (do (← P.add Q).eq (← P'.add Q')) = R.ok true ∧ (do (← P.sub Q).eq (← P'.sub Q')) = R.ok true ∧
    (do (← P.neg).eq (← P'.neg)) = R.ok true ∧ P.isZero = P'.isZero ∧ (∀ c, P.encode c = P'.encode c) ∧
    ∀ prof k, CanonScalar e.r k → (k.k ≠ 0 ∨ prof = .release) →
      (do (← P.mul prof k).eq (← P'.mul prof k)) = R.ok true := by
  obtain ⟨A, hA⟩ := hP
  obtain ⟨A', hA'⟩ := hP'
  obtain ⟨B, hB⟩ := hQ
  obtain ⟨B', hB'⟩ := hQ'
  have hAA := ELink.eq_of_denotes _ _ _ _ hA hA'
  have hBB := ELink.eq_of_denotes _ _ _ _ hB hB'
  rw [h, R.ok.injEq, eq_comm, decide_eq_true_eq] at hAA
  rw [h', R.ok.injEq, eq_comm, decide_eq_true_eq] at hBB
  subst hAA hBB
  obtain ⟨⟨S, hS, dS⟩, ⟨D, hD, dD⟩, ⟨N, hN, dN⟩, -⟩ := C36_group_law p e P Q A B hA hB
  obtain ⟨⟨S', hS', dS'⟩, ⟨D', hD', dD'⟩, ⟨N', hN', dN'⟩, -⟩ := C36_group_law p e P' Q' A B hA' hB'
  refine ⟨?_, ?_, ?_, ?_, fun c => (C39_injective p e hs P P' A A hA hA' c c).2 rfl, fun prof k hk h0 => ?_⟩
  · simp only [hS, hS', R.ok_bind, ELink.eq_of_denotes _ _ _ _ dS dS', decide_true]
  · simp only [hD, hD', R.ok_bind, ELink.eq_of_denotes _ _ _ _ dD dD', decide_true]
  · simp only [hN, hN', R.ok_bind, ELink.eq_of_denotes _ _ _ _ dN dN', decide_true]
  · rw [Bool.eq_iff_iff, C38_exact_partial p e P A hA, C38_exact_partial p e P' A hA']
  · obtain ⟨M, hM, dM⟩ := C37_mul_partial p e hr prof P A hA k hk h0
    obtain ⟨M', hM', dM'⟩ := C37_mul_partial p e hr prof P' A hA' k hk h0
    simp only [hM, hM', R.ok_bind, ELink.eq_of_denotes _ _ _ _ dM dM', decide_true]

end

end

/-! ## Refutations -/

/-- C72 is refuted across fields: comparing the generators of two named curves over different fields does not answer
false, it panics. -/
theorem _root_.Redox.Props.C72_refuted_fields :
    (do (← (← P256).getGenerator).eq (← (← P384).getGenerator)) = R.panic .differentFields ∧
    (do (← (← CURVE25519).getGenerator).eq (← (← CURVE448).getGenerator)) = R.panic .differentFields ∧
    (do (← (← EDWARDS25519).getGenerator).eq (← (← EDWARDS448).getGenerator)) = R.panic .differentFields := by
  refine ⟨?_, ?_, ?_⟩ <;> decide +kernel

/-- C72 is refuted for values returned by `+` on Weierstrass curves of even order (see C24): the sum `S` of two points
equals the identity, and equals another point, which are not equal to each other. -/
theorem _root_.Redox.Props.C72_refuted_transitive : ∃ O T S, toy7b.identity = R.ok O ∧
    toy7b.newPoint ⟨0, ⟨7⟩⟩ ⟨0, ⟨7⟩⟩ = R.ok T ∧ O.add T = R.ok S ∧
    O.eq S = R.ok true ∧ S.eq T = R.ok true ∧ O.eq T = R.ok false := by
  refine ⟨⟨toy7b, ⟨⟨0, ⟨7⟩⟩, ⟨1, ⟨7⟩⟩, ⟨0, ⟨7⟩⟩⟩⟩, ⟨toy7b, ⟨⟨0, ⟨7⟩⟩, ⟨0, ⟨7⟩⟩, ⟨1, ⟨7⟩⟩⟩⟩,
    ⟨toy7b, ⟨⟨0, ⟨7⟩⟩, ⟨0, ⟨7⟩⟩, ⟨0, ⟨7⟩⟩⟩⟩, ?_, ?_, ?_, ?_, ?_, ?_⟩ <;> decide +kernel

/-- The named curves SECP256K1 and SECP256K1_3ISO share a field: comparing across them answers false. -/
example : (do (← (← SECP256K1).getGenerator).eq (← (← SECP256K1_3ISO).getGenerator)) = R.ok false := by
  decide +kernel

/-- Two representatives of one point are interchangeable (the hypotheses of the congruence theorems are met). -/
example : ECurve 7 Ed.toyE ∧ Big.bits Ed.toyE.r < usizeMod ∧
    (Edwards.Point.mk Ed.toyE ⟨⟨2, ⟨7⟩⟩, ⟨4, ⟨7⟩⟩, ⟨4, ⟨7⟩⟩, ⟨2, ⟨7⟩⟩⟩).eq
      (Edwards.Point.mk Ed.toyE ⟨⟨1, ⟨7⟩⟩, ⟨2, ⟨7⟩⟩, ⟨2, ⟨7⟩⟩, ⟨1, ⟨7⟩⟩⟩) = R.ok true ∧
    CanonScalar Ed.toyE.r ⟨5, 12⟩ :=
  ⟨inferInstance, by decide +kernel, by decide +kernel, ⟨rfl, by decide, by decide⟩⟩

end Redox.Props.Eq
