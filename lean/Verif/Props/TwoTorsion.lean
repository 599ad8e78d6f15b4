import Verif.Props.MontPoints
import Verif.Model.RationalMaps

/-!
# C92: `is_two_torsion`
-/

namespace Redox.Props.Mo

open Spec Montgomery MLink Mont

section
variable (p : ℕ) [Fact p.Prime] (e : Curve)

/-- C92, exactly. On a nonsingular Montgomery curve a point of any representative gets the answer `true` from `is_two_torsion`
if and only if it has order two in the group of the curve and is normalised (`z = 1`). -/
theorem _root_.Redox.Props.C92_exact (he : MCurve p e) (P : Point) (A : (mGroup p e).Point) (hP : MDenotes p e P A) :
    P.isTwoTorsion = true ↔ A ≠ 0 ∧ A + A = 0 ∧ P.c.z.isOne = true := by
  have : Fact (1 < p) := ⟨(Fact.out : p.Prime).one_lt⟩
  have h2 : (2 : ZMod p) ≠ 0 := two_ne_zero' he.odd
  obtain ⟨x, y, z, rfl, hA⟩ := denotes_iff.1 hP
  simp only [Point.isTwoTorsion, pt, isZero_el, isOne_el, Bool.and_eq_true, decide_eq_true_eq]
  rcases A with _ | ⟨x', y', hn⟩
  · exact ⟨fun h => absurd h.1 hA.2.1, fun h => absurd rfl h.1⟩
  · obtain ⟨hz, -, rfl⟩ := hA
    have hs : (.some x' y' hn : (mGroup p e).Point) + .some x' y' hn = 0 ↔ y' = 0 := by
      rw [add_eq_zero_iff_eq_neg, WeierstrassCurve.Affine.Point.neg_some, WeierstrassCurve.Affine.Point.some.injEq]
      have hneg : (mGroup p e).negY x' y' = -y' := by simp [WeierstrassCurve.Affine.negY]
      rw [hneg]
      constructor
      · rintro ⟨-, h⟩
        have : 2 * y' = 0 := by linear_combination h
        exact (mul_eq_zero.1 this).resolve_left h2
      · rintro rfl; simp
    rw [hs, mul_eq_zero, or_iff_left hz]
    exact ⟨fun h => ⟨WeierstrassCurve.Affine.Point.some_ne_zero _, h.1, h.2⟩, fun h => h.2⟩

end

/-- C92, partial: the points that `is_two_torsion` reports have order two. Missing: points of order two that are not normalised, see
`C92_refuted`. -/
theorem _root_.Redox.Props.C92_sound_partial (p : ℕ) [Fact p.Prime] (e : Curve) (he : MCurve p e) (P : Point) (A : (mGroup p e).Point)
    (hP : MDenotes p e P A) (h : P.isTwoTorsion = true) : addOrderOf A = 2 := by
  obtain ⟨h0, h1, -⟩ := (Redox.Props.C92_exact p e he P A hP).1 h
  exact addOrderOf_eq_prime (by rw [two_nsmul]; exact h1) h0

/-- C92, partial: after `normalize` the answer is right for every point except the one at infinity, for which `normalize` returns the triple
`(0 : 0 : 1)` and the answer is `true`. -/
theorem _root_.Redox.Props.C92_normalised_partial (p : ℕ) [Fact p.Prime] (e : Curve) (he : MCurve p e) (P : Point) (A : (mGroup p e).Point)
    (hP : MDenotes p e P A) : ∃ N, P.normalize = R.ok N ∧ (A ≠ 0 → (N.isTwoTorsion = true ↔ addOrderOf A = 2)) ∧
      (A = 0 → N.isTwoTorsion = true) := by
  have : Fact (1 < p) := ⟨(Fact.out : p.Prime).one_lt⟩
  obtain ⟨x, y, z, rfl, hA⟩ := denotes_iff.1 hP
  refine ⟨_, normalize_pt he x y z, fun hA0 => ?_, ?_⟩
  · have hN : MDenotes p e (pt e (x * z⁻¹) (y * z⁻¹) 1) A := by
      refine denotes_iff.2 ⟨_, _, _, rfl, ?_⟩
      rcases A with _ | ⟨x', y', hn⟩
      · exact absurd rfl hA0
      · obtain ⟨hz, rfl, rfl⟩ := hA
        exact ⟨one_ne_zero, by field_simp, by field_simp⟩
    rw [Redox.Props.C92_exact p e he _ A hN]
    have h1 : (pt e (x * z⁻¹) (y * z⁻¹) 1).c.z.isOne = true := by simp [pt]
    constructor
    · rintro ⟨h0, h, -⟩
      exact addOrderOf_eq_prime (by rw [two_nsmul]; exact h) h0
    · intro h
      exact ⟨hA0, by rw [← two_nsmul, ← h, addOrderOf_nsmul_eq_zero], h1⟩
  · rintro rfl
    obtain ⟨-, -, rfl⟩ := hA
    simp [Point.isTwoTorsion, pt]

/-- C92 is refuted on CURVE25519: the point `T = (0, 0)` has order two and is reported; `(T + G) - G` is the same point according to `==` and is
not reported. -/
theorem _root_.Redox.Props.C92_refuted : (do
    let e ← CURVE25519
    let g ← e.getGenerator
    let t ← e.newPoint (← e.f.zero) (← e.f.zero)
    let s ← (← t.add g).sub g
    return (t.isTwoTorsion, ← s.eq t, s.isTwoTorsion)) = R.ok (true, true, false) := by
  decide +kernel

/-- Non-vacuity: `(0 : 0 : 1)` and `(0 : 0 : 2)` on the toy curve stand for the point `(0, 0)` of order two. -/
example : ∃ A, MDenotes 7 toyM ⟨toyM, ⟨⟨0, ⟨7⟩⟩, ⟨0, ⟨7⟩⟩, ⟨1, ⟨7⟩⟩⟩⟩ A ∧ MDenotes 7 toyM ⟨toyM, ⟨⟨0, ⟨7⟩⟩, ⟨0, ⟨7⟩⟩, ⟨2, ⟨7⟩⟩⟩⟩ A ∧ addOrderOf A = 2 ∧
    Point.isTwoTorsion ⟨toyM, ⟨⟨0, ⟨7⟩⟩, ⟨0, ⟨7⟩⟩, ⟨1, ⟨7⟩⟩⟩⟩ = true ∧ Point.isTwoTorsion ⟨toyM, ⟨⟨0, ⟨7⟩⟩, ⟨0, ⟨7⟩⟩, ⟨2, ⟨7⟩⟩⟩⟩ = false := by
  have hn : (mGroup 7 toyM).Nonsingular 0 0 := (nonsingular_iff _ _ _).2 (by decide)
  have h1 : MDenotes 7 toyM ⟨toyM, ⟨⟨0, ⟨7⟩⟩, ⟨0, ⟨7⟩⟩, ⟨1, ⟨7⟩⟩⟩⟩ (.some 0 0 hn) :=
    denotes_iff.2 ⟨0, 0, 1, by decide, by decide, by decide, by decide⟩
  exact ⟨_, h1, denotes_iff.2 ⟨0, 0, 2, by decide, by decide, by decide, by decide⟩,
    Redox.Props.C92_sound_partial 7 toyM toyM_curve _ _ h1 (by decide), by decide, by decide⟩

end Redox.Props.Mo
