import Verif.Props.ApiHistory
import Verif.Props.QuadApi

/-!
# C84: the functions that only look at a value, for quadratic-field elements and curves
-/

namespace Redox.Props.ApiH

open Spec

/-- The constants of a field. -/
theorem consts {f : Fp} (hp : 2 ≤ f.p) : f.zero = R.ok ⟨0, f⟩ ∧ f.one = R.ok ⟨1, f⟩ ∧
    (Canon f.p ⟨0, f⟩ ∧ val f.p ⟨0, f⟩ = 0) ∧ (Canon f.p ⟨1, f⟩ ∧ val f.p ⟨1, f⟩ = 1) := by
  have h0 : f.p ≠ 0 := by omega
  have h1 : (1 : ℤ) % f.p = 1 := Int.emod_eq_of_lt (by omega) (by omega)
  refine ⟨by simp [Fp.zero, Fp.elt, Big.modFloor, h0, Int.fmod_eq_emod_of_nonneg],
    by simp [Fp.one, Fp.elt, Big.modFloor, h0, Int.fmod_eq_emod_of_nonneg, h1], ⟨⟨rfl, le_rfl, ?_⟩, ?_⟩, ⟨⟨rfl, zero_le_one (α := ℤ), ?_⟩, ?_⟩⟩
  · show (0 : ℤ) < f.p
    omega
  · simp [val]
  · show (1 : ℤ) < f.p
    omega
  · simp [val]

/-- C84, consequence, for the remaining values that can be printed or serialised. Whatever sequence of public calls produced it, an element of a
quadratic field prints and serialises, in `size_bytes()` bytes in both byte orders, and these bytes read back as the same element; a curve prints,
and its identity can be asked for and is on the curve. -/
theorem _root_.Redox.Props.C84_observers_rest :
    (∀ x, Api (.elt2 x) → (∃ s, x.display = R.ok s) ∧
      (∃ bs, x.toBytesBE = R.ok bs ∧ bs.length = x.f.sizeBytes ∧ x.f.fromBytesBE bs = R.ok (some x)) ∧
      (∃ bs, x.toBytesLE = R.ok bs ∧ bs.length = x.f.sizeBytes ∧ x.f.fromBytesLE bs = R.ok (some x))) ∧
    (∀ e, Api (.wc e) → (∃ s, e.display = R.ok s) ∧ ∃ I, e.identity = R.ok I ∧ e.isOnCurve I = R.ok true ∧ I.eq I = R.ok true) ∧
    (∀ e, Api (.mc e) → (∃ s, e.display = R.ok s) ∧ ∃ I, e.identity = R.ok I ∧ e.isOnCurve I = R.ok true ∧ I.eq I = R.ok true) ∧
    (∀ e, Api (.ec e) → (∃ s, e.display = R.ok s) ∧ ∃ I, e.identity = R.ok I ∧ e.isOnCurve I = R.ok true ∧ I.eq I = R.ok true) := by
  refine ⟨fun x hx => ?_, fun e he => ?_, fun e he => ?_, fun e he => ?_⟩
  · obtain ⟨h2, h⟩ := (wellFormed _ hx : 2 ≤ x.f.base.p ∧ Canon2 x.f.base.p x)
    have hf : Fp2.new x.f.base.p = x.f := by
      obtain ⟨a, b, ⟨⟨q⟩⟩⟩ := x
      rfl
    have := C17_bytes x.f.base.p (by omega) x h
    rw [hf] at this
    exact ⟨⟨_, C57_display _ (by omega) x h⟩, this⟩
  · have h : WcOk e := wellFormed _ he
    have hp := h.mod
    refine ⟨⟨_, by simp only [Weierstrass.Curve.display, display_ok h.mod h.a, display_ok h.mod h.b, R.ok_bind, R.pure_eq]; rfl⟩, ?_⟩
    obtain ⟨h0, h1, hz, ho⟩ := consts hp
    have hP : WpOk ⟨e, ⟨⟨0, e.f⟩, ⟨1, e.f⟩, ⟨0, e.f⟩⟩⟩ := { curve := h, x := hz.1, y := ho.1, z := hz.1, eqn := by simp only [hz.2, ho.2]; ring }
    have hon := wp_on hP
    refine ⟨⟨e, ⟨⟨0, e.f⟩, ⟨1, e.f⟩, ⟨0, e.f⟩⟩⟩, ?_, hon, (wp_obs hP.toWpReduced).1⟩
    rw [Weierstrass.Curve.identity, h0, h1]
    simp only [R.ok_bind]
    rw [Weierstrass.Curve.newProyPoint, hon]
    rfl
  · have h : McOk e := wellFormed _ he
    have hp := h.mod
    refine ⟨⟨_, by simp only [Montgomery.Curve.display, display_ok h.mod h.a, display_ok h.mod h.b, R.ok_bind, R.pure_eq]; rfl⟩, ?_⟩
    obtain ⟨h0, h1, hz, ho⟩ := consts hp
    have hP : MpOk ⟨e, ⟨⟨0, e.f⟩, ⟨1, e.f⟩, ⟨0, e.f⟩⟩⟩ := { curve := h, x := hz.1, y := ho.1, z := hz.1, eqn := by simp only [hz.2, ho.2]; ring }
    have hon := mp_on hP
    refine ⟨⟨e, ⟨⟨0, e.f⟩, ⟨1, e.f⟩, ⟨0, e.f⟩⟩⟩, ?_, hon, (mp_obs hP.toMpReduced).1⟩
    rw [Montgomery.Curve.identity, h0, h1]
    simp only [R.ok_bind]
    rw [Montgomery.Curve.newProyPoint, hon]
    rfl
  · have h : EcOk e := wellFormed _ he
    have hp := h.mod
    refine ⟨⟨_, by simp only [Edwards.Curve.display, display_ok h.mod h.a, display_ok h.mod h.d, R.ok_bind, R.pure_eq]; rfl⟩, ?_⟩
    obtain ⟨h0, h1, hz, ho⟩ := consts hp
    have hP : EpOk ⟨e, ⟨⟨0, e.f⟩, ⟨1, e.f⟩, ⟨0, e.f⟩, ⟨1, e.f⟩⟩⟩ := { curve := h, x := hz.1, y := ho.1, t := hz.1, z := ho.1, eqn := by simp only [hz.2, ho.2]; ring, seg := by simp only [hz.2, ho.2] }
    have hon := ep_on hP
    refine ⟨⟨e, ⟨⟨0, e.f⟩, ⟨1, e.f⟩, ⟨0, e.f⟩, ⟨1, e.f⟩⟩⟩, ?_, hon, (ep_obs hP.toEpReduced).1⟩
    rw [Edwards.Curve.identity, h0, h1]
    simp only [R.ok_bind]
    rw [Edwards.Curve.newProyPoint, hon]
    rfl

/-- A quadratic-field element reached by a history: the sum of `3 + 5i` and itself over GF(7); and the curve P-256. -/
example : Api (.elt2 ⟨⟨6, ⟨7⟩⟩, ⟨3, ⟨7⟩⟩, ⟨⟨7⟩⟩⟩) ∧ Api (.wc Redox.Inst.p256) := by
  have hx : Api (.elt2 ⟨⟨3, ⟨7⟩⟩, ⟨5, ⟨7⟩⟩, ⟨⟨7⟩⟩⟩) :=
    .fromStr2 (ascii! "3,5") (.fp2New 7 (by decide)) (by decide +kernel)
  exact ⟨.add2 hx hx (by decide +kernel), .wcNew _ Redox.Inst.p256_eq (by decide +kernel)⟩

end Redox.Props.ApiH
