import Verif.Props.EdwCodec
import Verif.Props.MontCodec
import Verif.Props.WeierCodec
import Verif.Spec.Programs
import Verif.Props.ArithExpr
import Verif.Props.Commit
import Verif.Props.InstanceProps

/-!
# C121: any program over points and scalars computes its value
-/

set_option linter.unusedSectionVars false

namespace Redox.Props.Programs

open Spec Redox.Inst Redox.Props.Inst Redox.Props.Flow Redox.Props.Threshold Redox.Props.Commit

theorem scalar_residue (r : ℕ) (hr : r.Prime) (h2 : r ≠ 2) (senv : ℕ → Scalar) (hs : ∀ i, CanonScalar r (senv i)) (k : AExpr) (hk : k.NoPow ∧ k.NoSq) :
    ∃ s, k.runS r senv = R.ok s ∧ CanonScalar r s ∧ s.k = (residue r senv k).val := by
  have := Fact.mk hr
  obtain ⟨s, h1, c, v⟩ := C120_scalar r hr h2 senv hs k hk
  refine ⟨s, h1, c, ?_⟩
  have hv : residue r senv k = (s.k : ZMod r) := v.symm
  rw [hv, ZMod.val_intCast, Int.emod_eq_of_lt c.2.1 c.2.2]

section
variable {G : Type*} [AddCommGroup G] {r : ℕ} [NeZero r] {g : G}

theorem val_zsmul (hg : r • g = 0) (z : ℤ) : ((z : ZMod r)).val • g = z • g := by
  have h : (((z : ZMod r)).val : ℤ) = z % r := ZMod.val_intCast z
  rw [← natCast_zsmul, h]
  conv_rhs => rw [← Int.emod_add_mul_ediv z r, add_zsmul, mul_comm, mul_zsmul, natCast_zsmul, hg, zsmul_zero, add_zero]

theorem val_eq (x : ZMod r) : x = (((x.val : ℕ) : ℤ) : ZMod r) := by simp

theorem value_log (hg : r • g = 0) (h1 : 1 < r) (κ : AExpr → ZMod r) (l : ℕ → ZMod r) (t : GExpr) :
    t.value g κ (fun i => (l i).val • g) = (t.log κ l).val • g := by
  induction t with
  | var i => rfl
  | identity => simp [GExpr.value, GExpr.log]
  | generator =>
    have := Fact.mk h1
    simp [GExpr.value, GExpr.log, ZMod.val_one]
  | add a b iha ihb =>
    simp only [GExpr.value, GExpr.log]
    rw [iha, ihb, val_eq (a.log κ l), val_eq (b.log κ l), ← Int.cast_add, val_zsmul hg, val_zsmul hg, val_zsmul hg, add_zsmul]
  | sub a b iha ihb =>
    simp only [GExpr.value, GExpr.log]
    rw [iha, ihb, val_eq (a.log κ l), val_eq (b.log κ l), ← Int.cast_sub, val_zsmul hg, val_zsmul hg, val_zsmul hg, sub_zsmul, sub_eq_add_neg]
  | neg a iha =>
    simp only [GExpr.value, GExpr.log]
    rw [iha, val_eq (a.log κ l), ← Int.cast_neg, val_zsmul hg, val_zsmul hg, neg_zsmul]
  | mul a k iha =>
    simp only [GExpr.value, GExpr.log]
    rw [iha, ← mul_nsmul', ← natCast_zsmul, ← val_zsmul hg]
    congr 2
    push_cast
    simp

theorem val_inj (hg : addOrderOf g = r) (x y : ZMod r) : x.val • g = y.val • g ↔ x = y := by
  refine ⟨fun h => ZMod.val_injective r ?_, fun h => by rw [h]⟩
  exact nsmul_injOn_Iio_addOrderOf (by simpa [hg] using ZMod.val_lt x) (by simpa [hg] using ZMod.val_lt y) h

end

section
variable (p : ℕ) [Fact p.Prime]

/-- C121, Weierstrass: for all points and all scalars, running the program in the release profile, or in either profile if no scalar by which it multiplies is
zero, returns a point that stands for its value. -/
theorem _root_.Redox.Props.C121_weierstrass (e : Weierstrass.Curve) (h : WValid p e) (hr2 : e.getOrder ≠ 2) (prof : Profile) (G : Weierstrass.Point)
    (g : (wGroup p e).Point) (hG : e.getGenerator = R.ok G) (hg : WDenotes p e G g) (env : ℕ → Weierstrass.Point) (ρ : ℕ → (wGroup p e).Point)
    (henv : ∀ i, WDenotes p e (env i) (ρ i)) (senv : ℕ → Scalar) (hsenv : ∀ i, CanonScalar e.getOrder (senv i)) (t : GExpr)
    (ht : t.Scalars fun k => k.NoPow ∧ k.NoSq) (h0 : t.Scalars (fun k => residue e.getOrder senv k ≠ 0) ∨ prof = .release) :
    WReturns p e (t.runW prof e env senv) (t.value g (residue e.getOrder senv) ρ) := by
  have law := fun P Q A B hP hQ => C23_group_law p e h.curve h.complete P Q A B hP hQ
  induction t with
  | var i => exact ⟨_, rfl, henv i⟩
  | identity => obtain ⟨I, hI, hId, -⟩ := C22_identity p e h.curve; exact ⟨I, hI, hId⟩
  | generator => exact ⟨G, hG, hg⟩
  | add a b iha ihb =>
    obtain ⟨P, hP, dP⟩ := iha ht.1 (h0.imp_left And.left)
    obtain ⟨Q, hQ, dQ⟩ := ihb ht.2 (h0.imp_left And.right)
    simp only [GExpr.runW, GExpr.value, hP, hQ, R.ok_bind]
    exact (law P Q _ _ dP dQ).1
  | sub a b iha ihb =>
    obtain ⟨P, hP, dP⟩ := iha ht.1 (h0.imp_left And.left)
    obtain ⟨Q, hQ, dQ⟩ := ihb ht.2 (h0.imp_left And.right)
    simp only [GExpr.runW, GExpr.value, hP, hQ, R.ok_bind]
    exact (law P Q _ _ dP dQ).2.1
  | neg a iha =>
    obtain ⟨P, hP, dP⟩ := iha ht h0
    simp only [GExpr.runW, GExpr.value, hP, R.ok_bind]
    exact (law P P _ _ dP dP).2.2
  | mul a k iha =>
    obtain ⟨P, hP, dP⟩ := iha ht.1 (h0.imp_left And.left)
    obtain ⟨s, hs, cs, vs⟩ := scalar_residue e.getOrder h.order_prime hr2 senv hsenv k ht.2
    simp only [GExpr.runW, GExpr.value, hP, hs, R.ok_bind, ← natCast_zsmul, ← vs]
    exact C25_mul_partial p e h.curve h.complete h.order_bits prof P _ dP s cs (h0.imp_left fun hz h0 => hz.2 ((ZMod.val_eq_zero _).1 (by rw [h0] at vs; exact_mod_cast vs.symm)))

/-- C121, Weierstrass, zero scalars in builds with overflow checks: if some scalar by which the program multiplies is zero, the program panics. -/
theorem _root_.Redox.Props.C121_weierstrass_zero (e : Weierstrass.Curve) (h : WValid p e) (hr2 : e.getOrder ≠ 2) (G : Weierstrass.Point)
    (g : (wGroup p e).Point) (hG : e.getGenerator = R.ok G) (hg : WDenotes p e G g) (env : ℕ → Weierstrass.Point) (ρ : ℕ → (wGroup p e).Point)
    (henv : ∀ i, WDenotes p e (env i) (ρ i)) (senv : ℕ → Scalar) (hsenv : ∀ i, CanonScalar e.getOrder (senv i)) (t : GExpr)
    (ht : t.Scalars fun k => k.NoPow ∧ k.NoSq) (h0 : ¬ t.Scalars fun k => residue e.getOrder senv k ≠ 0) :
    t.runW .debug e env senv = R.panic .overflow := by
  have ok := fun (t : GExpr) ht h0 => C121_weierstrass p e h hr2 .debug G g hG hg env ρ henv senv hsenv t ht (.inl h0)
  have two : ∀ (a b : GExpr) (f : Weierstrass.Point → Weierstrass.Point → R Weierstrass.Point),
      (a.Scalars fun k => k.NoPow ∧ k.NoSq) →
      ((¬ a.Scalars fun k => residue e.getOrder senv k ≠ 0) → a.runW .debug e env senv = R.panic .overflow) →
      ((¬ b.Scalars fun k => residue e.getOrder senv k ≠ 0) → b.runW .debug e env senv = R.panic .overflow) →
      (¬ ((a.Scalars fun k => residue e.getOrder senv k ≠ 0) ∧ b.Scalars fun k => residue e.getOrder senv k ≠ 0)) →
      (do f (← a.runW .debug e env senv) (← b.runW .debug e env senv)) = R.panic .overflow := by
    intro a b f hta ha hb hab
    by_cases ha' : a.Scalars fun k => residue e.getOrder senv k ≠ 0
    · obtain ⟨x, hx, -⟩ := ok a hta ha'
      rw [hx, hb fun hb' => hab ⟨ha', hb'⟩]
      rfl
    · rw [ha ha']
      rfl
  induction t with
  | var i => exact (h0 trivial).elim
  | identity => exact (h0 trivial).elim
  | generator => exact (h0 trivial).elim
  | add a b iha ihb => exact two a b _ ht.1 (iha ht.1) (ihb ht.2) h0
  | sub a b iha ihb => exact two a b _ ht.1 (iha ht.1) (ihb ht.2) h0
  | neg a iha =>
    simp only [GExpr.runW, iha ht h0]
    rfl
  | mul a k iha =>
    by_cases ha : a.Scalars fun k => residue e.getOrder senv k ≠ 0
    · obtain ⟨P, hP, dP⟩ := ok a ht.1 ha
      obtain ⟨⟨k', r'⟩, hs, ⟨cr, -, -⟩, vs⟩ := scalar_residue e.getOrder h.order_prime hr2 senv hsenv k ht.2
      have hk : residue e.getOrder senv k = 0 := by
        by_contra hk
        exact h0 ⟨ha, hk⟩
      simp only at cr vs
      rw [hk, ZMod.val_zero] at vs
      subst cr vs
      simp only [GExpr.runW, hP, hs, R.ok_bind]
      exact C25_refuted_zero p e h.curve P dP.1
    · simp only [GExpr.runW, iha ht.1 ha]
      rfl

/-- C121, Weierstrass: two programs return points that are `==` exactly if their values are equal in the group. -/
theorem _root_.Redox.Props.C121_weierstrass_eq (e : Weierstrass.Curve) (h : WValid p e) (hr2 : e.getOrder ≠ 2) (prof : Profile) (G : Weierstrass.Point)
    (g : (wGroup p e).Point) (hG : e.getGenerator = R.ok G) (hg : WDenotes p e G g) (env : ℕ → Weierstrass.Point) (ρ : ℕ → (wGroup p e).Point)
    (henv : ∀ i, WDenotes p e (env i) (ρ i)) (senv : ℕ → Scalar) (hsenv : ∀ i, CanonScalar e.getOrder (senv i)) (t t' : GExpr)
    (ht : t.Scalars fun k => k.NoPow ∧ k.NoSq) (ht' : t'.Scalars fun k => k.NoPow ∧ k.NoSq)
    (h0 : (t.Scalars (fun k => residue e.getOrder senv k ≠ 0) ∧ t'.Scalars fun k => residue e.getOrder senv k ≠ 0) ∨ prof = .release) :
    (do (← t.runW prof e env senv).eq (← t'.runW prof e env senv)) =
      R.ok (decide (t.value g (residue e.getOrder senv) ρ = t'.value g (residue e.getOrder senv) ρ)) := by
  obtain ⟨P, hP, dP⟩ := C121_weierstrass p e h hr2 prof G g hG hg env ρ henv senv hsenv t ht (h0.imp_left And.left)
  obtain ⟨Q, hQ, dQ⟩ := C121_weierstrass p e h hr2 prof G g hG hg env ρ henv senv hsenv t' ht' (h0.imp_left And.right)
  rw [hP, hQ, R.ok_bind, R.ok_bind]
  exact w_eq p e dP dQ

/-- C121, Montgomery: for all points and all scalars, running the program in the release profile, or in either profile if no scalar by which it multiplies is
zero, returns a point that stands for its value. -/
theorem _root_.Redox.Props.C121_montgomery (e : Montgomery.Curve) (h : MValid p e) (hr2 : e.getOrder ≠ 2) (prof : Profile) (G : Montgomery.Point)
    (g : (mGroup p e).Point) (hG : e.getGenerator = R.ok G) (hg : MDenotes p e G g) (env : ℕ → Montgomery.Point) (ρ : ℕ → (mGroup p e).Point)
    (henv : ∀ i, MDenotes p e (env i) (ρ i)) (senv : ℕ → Scalar) (hsenv : ∀ i, CanonScalar e.getOrder (senv i)) (t : GExpr)
    (ht : t.Scalars fun k => k.NoPow ∧ k.NoSq) (h0 : t.Scalars (fun k => residue e.getOrder senv k ≠ 0) ∨ prof = .release) :
    MReturns p e (t.runM prof e env senv) (t.value g (residue e.getOrder senv) ρ) := by
  have law := fun P Q A B hP hQ => C32_group_law_partial p e h.curve h.b_one h.complete P Q A B hP hQ
  induction t with
  | var i => exact ⟨_, rfl, henv i⟩
  | identity => exact Mo.identity_denotes h.curve
  | generator => exact ⟨G, hG, hg⟩
  | add a b iha ihb =>
    obtain ⟨P, hP, dP⟩ := iha ht.1 (h0.imp_left And.left)
    obtain ⟨Q, hQ, dQ⟩ := ihb ht.2 (h0.imp_left And.right)
    simp only [GExpr.runM, GExpr.value, hP, hQ, R.ok_bind]
    exact (law P Q _ _ dP dQ).1
  | sub a b iha ihb =>
    obtain ⟨P, hP, dP⟩ := iha ht.1 (h0.imp_left And.left)
    obtain ⟨Q, hQ, dQ⟩ := ihb ht.2 (h0.imp_left And.right)
    simp only [GExpr.runM, GExpr.value, hP, hQ, R.ok_bind]
    exact (law P Q _ _ dP dQ).2.1
  | neg a iha =>
    obtain ⟨P, hP, dP⟩ := iha ht h0
    simp only [GExpr.runM, GExpr.value, hP, R.ok_bind]
    exact (law P P _ _ dP dP).2.2
  | mul a k iha =>
    obtain ⟨P, hP, dP⟩ := iha ht.1 (h0.imp_left And.left)
    obtain ⟨s, hs, cs, vs⟩ := scalar_residue e.getOrder h.order_prime hr2 senv hsenv k ht.2
    simp only [GExpr.runM, GExpr.value, hP, hs, R.ok_bind, ← natCast_zsmul, ← vs]
    exact C33_mul_partial p e h.curve h.b_one h.complete h.order_bits prof P _ dP s cs (h0.imp_left fun hz h0 => hz.2 ((ZMod.val_eq_zero _).1 (by rw [h0] at vs; exact_mod_cast vs.symm)))

/-- C121, Montgomery, zero scalars in builds with overflow checks: if some scalar by which the program multiplies is zero, the program panics. -/
theorem _root_.Redox.Props.C121_montgomery_zero (e : Montgomery.Curve) (h : MValid p e) (hr2 : e.getOrder ≠ 2) (G : Montgomery.Point)
    (g : (mGroup p e).Point) (hG : e.getGenerator = R.ok G) (hg : MDenotes p e G g) (env : ℕ → Montgomery.Point) (ρ : ℕ → (mGroup p e).Point)
    (henv : ∀ i, MDenotes p e (env i) (ρ i)) (senv : ℕ → Scalar) (hsenv : ∀ i, CanonScalar e.getOrder (senv i)) (t : GExpr)
    (ht : t.Scalars fun k => k.NoPow ∧ k.NoSq) (h0 : ¬ t.Scalars fun k => residue e.getOrder senv k ≠ 0) :
    t.runM .debug e env senv = R.panic .overflow := by
  have ok := fun (t : GExpr) ht h0 => C121_montgomery p e h hr2 .debug G g hG hg env ρ henv senv hsenv t ht (.inl h0)
  have two : ∀ (a b : GExpr) (f : Montgomery.Point → Montgomery.Point → R Montgomery.Point),
      (a.Scalars fun k => k.NoPow ∧ k.NoSq) →
      ((¬ a.Scalars fun k => residue e.getOrder senv k ≠ 0) → a.runM .debug e env senv = R.panic .overflow) →
      ((¬ b.Scalars fun k => residue e.getOrder senv k ≠ 0) → b.runM .debug e env senv = R.panic .overflow) →
      (¬ ((a.Scalars fun k => residue e.getOrder senv k ≠ 0) ∧ b.Scalars fun k => residue e.getOrder senv k ≠ 0)) →
      (do f (← a.runM .debug e env senv) (← b.runM .debug e env senv)) = R.panic .overflow := by
    intro a b f hta ha hb hab
    by_cases ha' : a.Scalars fun k => residue e.getOrder senv k ≠ 0
    · obtain ⟨x, hx, -⟩ := ok a hta ha'
      rw [hx, hb fun hb' => hab ⟨ha', hb'⟩]
      rfl
    · rw [ha ha']
      rfl
  induction t with
  | var i => exact (h0 trivial).elim
  | identity => exact (h0 trivial).elim
  | generator => exact (h0 trivial).elim
  | add a b iha ihb => exact two a b _ ht.1 (iha ht.1) (ihb ht.2) h0
  | sub a b iha ihb => exact two a b _ ht.1 (iha ht.1) (ihb ht.2) h0
  | neg a iha =>
    simp only [GExpr.runM, iha ht h0]
    rfl
  | mul a k iha =>
    by_cases ha : a.Scalars fun k => residue e.getOrder senv k ≠ 0
    · obtain ⟨P, hP, dP⟩ := ok a ht.1 ha
      obtain ⟨⟨k', r'⟩, hs, ⟨cr, -, -⟩, vs⟩ := scalar_residue e.getOrder h.order_prime hr2 senv hsenv k ht.2
      have hk : residue e.getOrder senv k = 0 := by
        by_contra hk
        exact h0 ⟨ha, hk⟩
      simp only at cr vs
      rw [hk, ZMod.val_zero] at vs
      subst cr vs
      simp only [GExpr.runM, hP, hs, R.ok_bind]
      exact C33_refuted_zero p e h.curve P dP.1
    · simp only [GExpr.runM, iha ht.1 ha]
      rfl

/-- C121, Montgomery: two programs return points that are `==` exactly if their values are equal in the group. -/
theorem _root_.Redox.Props.C121_montgomery_eq (e : Montgomery.Curve) (h : MValid p e) (hr2 : e.getOrder ≠ 2) (prof : Profile) (G : Montgomery.Point)
    (g : (mGroup p e).Point) (hG : e.getGenerator = R.ok G) (hg : MDenotes p e G g) (env : ℕ → Montgomery.Point) (ρ : ℕ → (mGroup p e).Point)
    (henv : ∀ i, MDenotes p e (env i) (ρ i)) (senv : ℕ → Scalar) (hsenv : ∀ i, CanonScalar e.getOrder (senv i)) (t t' : GExpr)
    (ht : t.Scalars fun k => k.NoPow ∧ k.NoSq) (ht' : t'.Scalars fun k => k.NoPow ∧ k.NoSq)
    (h0 : (t.Scalars (fun k => residue e.getOrder senv k ≠ 0) ∧ t'.Scalars fun k => residue e.getOrder senv k ≠ 0) ∨ prof = .release) :
    (do (← t.runM prof e env senv).eq (← t'.runM prof e env senv)) =
      R.ok (decide (t.value g (residue e.getOrder senv) ρ = t'.value g (residue e.getOrder senv) ρ)) := by
  obtain ⟨P, hP, dP⟩ := C121_montgomery p e h hr2 prof G g hG hg env ρ henv senv hsenv t ht (h0.imp_left And.left)
  obtain ⟨Q, hQ, dQ⟩ := C121_montgomery p e h hr2 prof G g hG hg env ρ henv senv hsenv t' ht' (h0.imp_left And.right)
  rw [hP, hQ, R.ok_bind, R.ok_bind]
  exact m_eq p e dP dQ

/-- C121, Edwards: for all points and all scalars, running the program in the release profile, or in either profile if no scalar by which it multiplies is
zero, returns a point that stands for its value. -/
theorem _root_.Redox.Props.C121_edwards (e : Edwards.Curve) (h : EValid p e) [ECurve p e] (hr2 : e.getOrder ≠ 2) (prof : Profile) (G : Edwards.Point)
    (g : eGroup p e) (hG : e.getGenerator = R.ok G) (hg : EDenotes p e G g) (env : ℕ → Edwards.Point) (ρ : ℕ → eGroup p e)
    (henv : ∀ i, EDenotes p e (env i) (ρ i)) (senv : ℕ → Scalar) (hsenv : ∀ i, CanonScalar e.getOrder (senv i)) (t : GExpr)
    (ht : t.Scalars fun k => k.NoPow ∧ k.NoSq) (h0 : t.Scalars (fun k => residue e.getOrder senv k ≠ 0) ∨ prof = .release) :
    EReturns p e (t.runE prof e env senv) (t.value g (residue e.getOrder senv) ρ) := by
  have law := fun P Q A B hP hQ => C36_group_law p e P Q A B hP hQ
  induction t with
  | var i => exact ⟨_, rfl, henv i⟩
  | identity => exact (law G G g g hg hg).2.2.2
  | generator => exact ⟨G, hG, hg⟩
  | add a b iha ihb =>
    obtain ⟨P, hP, dP⟩ := iha ht.1 (h0.imp_left And.left)
    obtain ⟨Q, hQ, dQ⟩ := ihb ht.2 (h0.imp_left And.right)
    simp only [GExpr.runE, GExpr.value, hP, hQ, R.ok_bind]
    exact (law P Q _ _ dP dQ).1
  | sub a b iha ihb =>
    obtain ⟨P, hP, dP⟩ := iha ht.1 (h0.imp_left And.left)
    obtain ⟨Q, hQ, dQ⟩ := ihb ht.2 (h0.imp_left And.right)
    simp only [GExpr.runE, GExpr.value, hP, hQ, R.ok_bind]
    exact (law P Q _ _ dP dQ).2.1
  | neg a iha =>
    obtain ⟨P, hP, dP⟩ := iha ht h0
    simp only [GExpr.runE, GExpr.value, hP, R.ok_bind]
    exact (law P P _ _ dP dP).2.2.1
  | mul a k iha =>
    obtain ⟨P, hP, dP⟩ := iha ht.1 (h0.imp_left And.left)
    obtain ⟨s, hs, cs, vs⟩ := scalar_residue e.getOrder h.order_prime hr2 senv hsenv k ht.2
    simp only [GExpr.runE, GExpr.value, hP, hs, R.ok_bind, ← natCast_zsmul, ← vs]
    exact C37_mul_partial p e h.order_bits prof P _ dP s cs (h0.imp_left fun hz h0 => hz.2 ((ZMod.val_eq_zero _).1 (by rw [h0] at vs; exact_mod_cast vs.symm)))

/-- C121, Edwards, zero scalars in builds with overflow checks: if some scalar by which the program multiplies is zero, the program panics. -/
theorem _root_.Redox.Props.C121_edwards_zero (e : Edwards.Curve) (h : EValid p e) [ECurve p e] (hr2 : e.getOrder ≠ 2) (G : Edwards.Point)
    (g : eGroup p e) (hG : e.getGenerator = R.ok G) (hg : EDenotes p e G g) (env : ℕ → Edwards.Point) (ρ : ℕ → eGroup p e)
    (henv : ∀ i, EDenotes p e (env i) (ρ i)) (senv : ℕ → Scalar) (hsenv : ∀ i, CanonScalar e.getOrder (senv i)) (t : GExpr)
    (ht : t.Scalars fun k => k.NoPow ∧ k.NoSq) (h0 : ¬ t.Scalars fun k => residue e.getOrder senv k ≠ 0) :
    t.runE .debug e env senv = R.panic .overflow := by
  have ok := fun (t : GExpr) ht h0 => C121_edwards p e h hr2 .debug G g hG hg env ρ henv senv hsenv t ht (.inl h0)
  have two : ∀ (a b : GExpr) (f : Edwards.Point → Edwards.Point → R Edwards.Point),
      (a.Scalars fun k => k.NoPow ∧ k.NoSq) →
      ((¬ a.Scalars fun k => residue e.getOrder senv k ≠ 0) → a.runE .debug e env senv = R.panic .overflow) →
      ((¬ b.Scalars fun k => residue e.getOrder senv k ≠ 0) → b.runE .debug e env senv = R.panic .overflow) →
      (¬ ((a.Scalars fun k => residue e.getOrder senv k ≠ 0) ∧ b.Scalars fun k => residue e.getOrder senv k ≠ 0)) →
      (do f (← a.runE .debug e env senv) (← b.runE .debug e env senv)) = R.panic .overflow := by
    intro a b f hta ha hb hab
    by_cases ha' : a.Scalars fun k => residue e.getOrder senv k ≠ 0
    · obtain ⟨x, hx, -⟩ := ok a hta ha'
      rw [hx, hb fun hb' => hab ⟨ha', hb'⟩]
      rfl
    · rw [ha ha']
      rfl
  induction t with
  | var i => exact (h0 trivial).elim
  | identity => exact (h0 trivial).elim
  | generator => exact (h0 trivial).elim
  | add a b iha ihb => exact two a b _ ht.1 (iha ht.1) (ihb ht.2) h0
  | sub a b iha ihb => exact two a b _ ht.1 (iha ht.1) (ihb ht.2) h0
  | neg a iha =>
    simp only [GExpr.runE, iha ht h0]
    rfl
  | mul a k iha =>
    by_cases ha : a.Scalars fun k => residue e.getOrder senv k ≠ 0
    · obtain ⟨P, hP, dP⟩ := ok a ht.1 ha
      obtain ⟨⟨k', r'⟩, hs, ⟨cr, -, -⟩, vs⟩ := scalar_residue e.getOrder h.order_prime hr2 senv hsenv k ht.2
      have hk : residue e.getOrder senv k = 0 := by
        by_contra hk
        exact h0 ⟨ha, hk⟩
      simp only at cr vs
      rw [hk, ZMod.val_zero] at vs
      subst cr vs
      simp only [GExpr.runE, hP, hs, R.ok_bind]
      exact C37_refuted_zero p e h.curve.params P dP.1
    · simp only [GExpr.runE, iha ht.1 ha]
      rfl

/-- C121, Edwards: two programs return points that are `==` exactly if their values are equal in the group. -/
theorem _root_.Redox.Props.C121_edwards_eq (e : Edwards.Curve) (h : EValid p e) [ECurve p e] (hr2 : e.getOrder ≠ 2) (prof : Profile) (G : Edwards.Point)
    (g : eGroup p e) (hG : e.getGenerator = R.ok G) (hg : EDenotes p e G g) (env : ℕ → Edwards.Point) (ρ : ℕ → eGroup p e)
    (henv : ∀ i, EDenotes p e (env i) (ρ i)) (senv : ℕ → Scalar) (hsenv : ∀ i, CanonScalar e.getOrder (senv i)) (t t' : GExpr)
    (ht : t.Scalars fun k => k.NoPow ∧ k.NoSq) (ht' : t'.Scalars fun k => k.NoPow ∧ k.NoSq)
    (h0 : (t.Scalars (fun k => residue e.getOrder senv k ≠ 0) ∧ t'.Scalars fun k => residue e.getOrder senv k ≠ 0) ∨ prof = .release) :
    (do (← t.runE prof e env senv).eq (← t'.runE prof e env senv)) =
      R.ok (decide (t.value g (residue e.getOrder senv) ρ = t'.value g (residue e.getOrder senv) ρ)) := by
  obtain ⟨P, hP, dP⟩ := C121_edwards p e h hr2 prof G g hG hg env ρ henv senv hsenv t ht (h0.imp_left And.left)
  obtain ⟨Q, hQ, dQ⟩ := C121_edwards p e h hr2 prof G g hG hg env ρ henv senv hsenv t' ht' (h0.imp_left And.right)
  rw [hP, hQ, R.ok_bind, R.ok_bind]
  exact e_eq p e dP dQ

/-- C121, Weierstrass: if the given points are multiples of the generator, two programs return points that are `==` exactly if the multiples computed modulo
the order are equal. -/
theorem _root_.Redox.Props.C121_weierstrass_log (e : Weierstrass.Curve) (h : WValid p e) (hr2 : e.getOrder ≠ 2) (prof : Profile) (G : Weierstrass.Point)
    (g : (wGroup p e).Point) (hG : e.getGenerator = R.ok G) (hg : WDenotes p e G g) (ho : addOrderOf g = e.getOrder) (env : ℕ → Weierstrass.Point)
    (l : ℕ → ZMod e.getOrder) (henv : ∀ i, WDenotes p e (env i) ((l i).val • g)) (senv : ℕ → Scalar) (hsenv : ∀ i, CanonScalar e.getOrder (senv i))
    (t t' : GExpr) (ht : t.Scalars fun k => k.NoPow ∧ k.NoSq) (ht' : t'.Scalars fun k => k.NoPow ∧ k.NoSq)
    (h0 : (t.Scalars (fun k => residue e.getOrder senv k ≠ 0) ∧ t'.Scalars fun k => residue e.getOrder senv k ≠ 0) ∨ prof = .release) :
    (do (← t.runW prof e env senv).eq (← t'.runW prof e env senv)) =
      R.ok (decide (t.log (residue e.getOrder senv) l = t'.log (residue e.getOrder senv) l)) := by
  have := NeZero.mk h.order_prime.ne_zero
  have hk : e.getOrder • g = 0 := by rw [← ho]; exact addOrderOf_nsmul_eq_zero g
  rw [C121_weierstrass_eq p e h hr2 prof G g hG hg env _ henv senv hsenv t t' ht ht' h0, value_log hk h.order_prime.one_lt, value_log hk h.order_prime.one_lt]
  exact congrArg R.ok (decide_eq_decide.2 (val_inj ho _ _))

/-- C121, Montgomery: if the given points are multiples of the generator, two programs return points that are `==` exactly if the multiples computed modulo
the order are equal. -/
theorem _root_.Redox.Props.C121_montgomery_log (e : Montgomery.Curve) (h : MValid p e) (hr2 : e.getOrder ≠ 2) (prof : Profile) (G : Montgomery.Point)
    (g : (mGroup p e).Point) (hG : e.getGenerator = R.ok G) (hg : MDenotes p e G g) (ho : addOrderOf g = e.getOrder) (env : ℕ → Montgomery.Point)
    (l : ℕ → ZMod e.getOrder) (henv : ∀ i, MDenotes p e (env i) ((l i).val • g)) (senv : ℕ → Scalar) (hsenv : ∀ i, CanonScalar e.getOrder (senv i))
    (t t' : GExpr) (ht : t.Scalars fun k => k.NoPow ∧ k.NoSq) (ht' : t'.Scalars fun k => k.NoPow ∧ k.NoSq)
    (h0 : (t.Scalars (fun k => residue e.getOrder senv k ≠ 0) ∧ t'.Scalars fun k => residue e.getOrder senv k ≠ 0) ∨ prof = .release) :
    (do (← t.runM prof e env senv).eq (← t'.runM prof e env senv)) =
      R.ok (decide (t.log (residue e.getOrder senv) l = t'.log (residue e.getOrder senv) l)) := by
  have := NeZero.mk h.order_prime.ne_zero
  have hk : e.getOrder • g = 0 := by rw [← ho]; exact addOrderOf_nsmul_eq_zero g
  rw [C121_montgomery_eq p e h hr2 prof G g hG hg env _ henv senv hsenv t t' ht ht' h0, value_log hk h.order_prime.one_lt, value_log hk h.order_prime.one_lt]
  exact congrArg R.ok (decide_eq_decide.2 (val_inj ho _ _))

/-- C121, Edwards: if the given points are multiples of the generator, two programs return points that are `==` exactly if the multiples computed modulo
the order are equal. -/
theorem _root_.Redox.Props.C121_edwards_log (e : Edwards.Curve) (h : EValid p e) [ECurve p e] (hr2 : e.getOrder ≠ 2) (prof : Profile) (G : Edwards.Point)
    (g : eGroup p e) (hG : e.getGenerator = R.ok G) (hg : EDenotes p e G g) (ho : addOrderOf g = e.getOrder) (env : ℕ → Edwards.Point)
    (l : ℕ → ZMod e.getOrder) (henv : ∀ i, EDenotes p e (env i) ((l i).val • g)) (senv : ℕ → Scalar) (hsenv : ∀ i, CanonScalar e.getOrder (senv i))
    (t t' : GExpr) (ht : t.Scalars fun k => k.NoPow ∧ k.NoSq) (ht' : t'.Scalars fun k => k.NoPow ∧ k.NoSq)
    (h0 : (t.Scalars (fun k => residue e.getOrder senv k ≠ 0) ∧ t'.Scalars fun k => residue e.getOrder senv k ≠ 0) ∨ prof = .release) :
    (do (← t.runE prof e env senv).eq (← t'.runE prof e env senv)) =
      R.ok (decide (t.log (residue e.getOrder senv) l = t'.log (residue e.getOrder senv) l)) := by
  have := NeZero.mk h.order_prime.ne_zero
  have hk : e.getOrder • g = 0 := by rw [← ho]; exact addOrderOf_nsmul_eq_zero g
  rw [C121_edwards_eq p e h hr2 prof G g hG hg env _ henv senv hsenv t t' ht ht' h0, value_log hk h.order_prime.one_lt, value_log hk h.order_prime.one_lt]
  exact congrArg R.ok (decide_eq_decide.2 (val_inj ho _ _))

/-- C121, Weierstrass, encodings: the result of a program with a value other than the identity has an encoding that decodes to a point that stands for its value, and two programs of this kind have the
same encoding exactly if their values are equal. -/
theorem _root_.Redox.Props.C121_weierstrass_bytes (e : Weierstrass.Curve) (h : WValid p e) (hs : p % 4 = 3 ∨ p % 8 = 5) (hr2 : e.getOrder ≠ 2) (prof : Profile)
    (G : Weierstrass.Point) (g : (wGroup p e).Point) (hG : e.getGenerator = R.ok G) (hg : WDenotes p e G g) (env : ℕ → Weierstrass.Point) (ρ : ℕ → (wGroup p e).Point)
    (henv : ∀ i, WDenotes p e (env i) (ρ i)) (senv : ℕ → Scalar) (hsenv : ∀ i, CanonScalar e.getOrder (senv i)) (t : GExpr)
    (ht : t.Scalars fun k => k.NoPow ∧ k.NoSq) (h0 : t.Scalars (fun k => residue e.getOrder senv k ≠ 0) ∨ prof = .release)
    (hA : t.value g (residue e.getOrder senv) ρ ≠ 0) (c : Bool) :
    ∃ bs Q, (do (← t.runW prof e env senv).encode c) = R.ok bs ∧ e.decode bs = R.ok (.ok Q) ∧
      WDenotes p e Q (t.value g (residue e.getOrder senv) ρ) ∧
      ∀ t' : GExpr, (t'.Scalars fun k => k.NoPow ∧ k.NoSq) → (t'.Scalars (fun k => residue e.getOrder senv k ≠ 0) ∨ prof = .release) →
        t'.value g (residue e.getOrder senv) ρ ≠ 0 →
        ((do (← t'.runW prof e env senv).encode c) = R.ok bs ↔
          t'.value g (residue e.getOrder senv) ρ = t.value g (residue e.getOrder senv) ρ) := by
  obtain ⟨P, hP, dP⟩ := C121_weierstrass p e h hr2 prof G g hG hg env ρ henv senv hsenv t ht h0
  obtain ⟨bs, Q, hb, -, hd, dQ, -⟩ := C28_roundtrip_partial p e h.curve hs P _ dP hA c
  refine ⟨bs, Q, by rw [hP, R.ok_bind, hb], hd, dQ, fun t' ht' h0' hA' => ?_⟩
  obtain ⟨P', hP', dP'⟩ := C121_weierstrass p e h hr2 prof G g hG hg env ρ henv senv hsenv t' ht' h0'
  rw [hP', R.ok_bind, ← hb]
  have hc := C30_encode p e h.curve c P' P _ _ dP' dP
  exact ⟨hc.2 hA' hA, hc.1⟩

/-- C121, Montgomery, encodings: the result of a program with a value other than the identity has an encoding that decodes to a point that stands for its value, and two programs of this kind have the
same encoding exactly if their values are equal. -/
theorem _root_.Redox.Props.C121_montgomery_bytes (e : Montgomery.Curve) (h : MValid p e) (hs : p % 4 = 3 ∨ p % 8 = 5) (hr2 : e.getOrder ≠ 2) (prof : Profile)
    (G : Montgomery.Point) (g : (mGroup p e).Point) (hG : e.getGenerator = R.ok G) (hg : MDenotes p e G g) (env : ℕ → Montgomery.Point) (ρ : ℕ → (mGroup p e).Point)
    (henv : ∀ i, MDenotes p e (env i) (ρ i)) (senv : ℕ → Scalar) (hsenv : ∀ i, CanonScalar e.getOrder (senv i)) (t : GExpr)
    (ht : t.Scalars fun k => k.NoPow ∧ k.NoSq) (h0 : t.Scalars (fun k => residue e.getOrder senv k ≠ 0) ∨ prof = .release)
    (hA : t.value g (residue e.getOrder senv) ρ ≠ 0) (c : Bool) :
    ∃ bs Q, (do (← t.runM prof e env senv).encode c) = R.ok bs ∧ e.decode bs = R.ok (.ok Q) ∧
      MDenotes p e Q (t.value g (residue e.getOrder senv) ρ) ∧
      ∀ t' : GExpr, (t'.Scalars fun k => k.NoPow ∧ k.NoSq) → (t'.Scalars (fun k => residue e.getOrder senv k ≠ 0) ∨ prof = .release) →
        t'.value g (residue e.getOrder senv) ρ ≠ 0 →
        ((do (← t'.runM prof e env senv).encode c) = R.ok bs ↔
          t'.value g (residue e.getOrder senv) ρ = t.value g (residue e.getOrder senv) ρ) := by
  obtain ⟨P, hP, dP⟩ := C121_montgomery p e h hr2 prof G g hG hg env ρ henv senv hsenv t ht h0
  obtain ⟨bs, Q, hb, -, hd, dQ, -⟩ := C34_roundtrip_partial p e h.curve h.b_one hs P _ dP hA c
  refine ⟨bs, Q, by rw [hP, R.ok_bind, hb], hd, dQ, fun t' ht' h0' hA' => ?_⟩
  obtain ⟨P', hP', dP'⟩ := C121_montgomery p e h hr2 prof G g hG hg env ρ henv senv hsenv t' ht' h0'
  rw [hP', R.ok_bind, ← hb]
  have hc := C34_canonical_partial p e h.curve c P' P _ _ dP' dP
  exact ⟨hc.2 hA' hA, hc.1⟩

/-- C121, Edwards, encodings: the result of a program has an encoding that decodes to a point that stands for its value, and two programs have the
same encoding exactly if their values are equal. -/
theorem _root_.Redox.Props.C121_edwards_bytes (e : Edwards.Curve) (h : EValid p e) [ECurve p e] (hs : p % 4 = 3 ∨ p % 8 = 5) (hr2 : e.getOrder ≠ 2) (prof : Profile)
    (G : Edwards.Point) (g : eGroup p e) (hG : e.getGenerator = R.ok G) (hg : EDenotes p e G g) (env : ℕ → Edwards.Point) (ρ : ℕ → eGroup p e)
    (henv : ∀ i, EDenotes p e (env i) (ρ i)) (senv : ℕ → Scalar) (hsenv : ∀ i, CanonScalar e.getOrder (senv i)) (t : GExpr)
    (ht : t.Scalars fun k => k.NoPow ∧ k.NoSq) (h0 : t.Scalars (fun k => residue e.getOrder senv k ≠ 0) ∨ prof = .release) (c : Bool) :
    ∃ bs Q, (do (← t.runE prof e env senv).encode c) = R.ok bs ∧ e.decode bs = R.ok (.ok Q) ∧
      EDenotes p e Q (t.value g (residue e.getOrder senv) ρ) ∧
      ∀ t' : GExpr, (t'.Scalars fun k => k.NoPow ∧ k.NoSq) → (t'.Scalars (fun k => residue e.getOrder senv k ≠ 0) ∨ prof = .release) →
        ((do (← t'.runE prof e env senv).encode c) = R.ok bs ↔
          t'.value g (residue e.getOrder senv) ρ = t.value g (residue e.getOrder senv) ρ) := by
  obtain ⟨P, hP, dP⟩ := C121_edwards p e h hr2 prof G g hG hg env ρ henv senv hsenv t ht h0
  obtain ⟨bs, Q, hb, -, -, hd, dQ, -⟩ := C39_roundtrip p e hs P _ dP c
  refine ⟨bs, Q, by rw [hP, R.ok_bind, hb], hd, dQ, fun t' ht' h0' => ?_⟩
  obtain ⟨P', hP', dP'⟩ := C121_edwards p e h hr2 prof G g hG hg env ρ henv senv hsenv t' ht' h0'
  rw [hP', R.ok_bind, ← hb]
  exact C39_injective p e hs P' P _ _ dP' dP c c

end

/-- C121 on the named Weierstrass curves: any two programs over multiples of the generator are `==` exactly if the multiples computed modulo the order are equal. -/
theorem _root_.Redox.Props.C121_named_weierstrass : ∀ c ∈ weierstrassList, ∃ (_ : Fact c.2.Prime) (e : Weierstrass.Curve) (g : (wGroup c.2 e).Point),
    c.1 = R.ok e ∧ addOrderOf g = e.getOrder ∧
    ∀ (prof : Profile) (env : ℕ → Weierstrass.Point) (l : ℕ → ZMod e.getOrder), (∀ i, WDenotes c.2 e (env i) ((l i).val • g)) →
    ∀ senv : ℕ → Scalar, (∀ i, CanonScalar e.getOrder (senv i)) → ∀ t t' : GExpr, (t.Scalars fun k => k.NoPow ∧ k.NoSq) →
    (t'.Scalars fun k => k.NoPow ∧ k.NoSq) →
    ((t.Scalars (fun k => residue e.getOrder senv k ≠ 0) ∧ t'.Scalars fun k => residue e.getOrder senv k ≠ 0) ∨ prof = .release) →
    (do (← t.runW prof e env senv).eq (← t'.runW prof e env senv)) =
      R.ok (decide (t.log (residue e.getOrder senv) l = t'.log (residue e.getOrder senv) l)) := by
  intro c hc
  obtain ⟨hp, e, he, hv⟩ := C49_weierstrass c hc
  have h2 : ∀ c ∈ weierstrassList, (do return (← c.1).getOrder : R ℕ) ≠ R.ok 2 := by decide +kernel
  have hr2 : e.getOrder ≠ 2 := fun hr => h2 c hc (by rw [he, R.ok_bind, hr]; rfl)
  obtain ⟨G, g, hG, hg, ho⟩ := hv.generator
  exact ⟨hp, e, g, he, ho, fun prof env l henv senv hs t t' ht ht' h0 =>
    C121_weierstrass_log c.2 e hv hr2 prof G g hG hg ho env l henv senv hs t t' ht ht' h0⟩

/-- C121 on the named Montgomery curves: any two programs over multiples of the generator are `==` exactly if the multiples computed modulo the order are equal. -/
theorem _root_.Redox.Props.C121_named_montgomery : ∀ c ∈ montgomeryList, ∃ (_ : Fact c.2.Prime) (e : Montgomery.Curve) (g : (mGroup c.2 e).Point),
    c.1 = R.ok e ∧ addOrderOf g = e.getOrder ∧
    ∀ (prof : Profile) (env : ℕ → Montgomery.Point) (l : ℕ → ZMod e.getOrder), (∀ i, MDenotes c.2 e (env i) ((l i).val • g)) →
    ∀ senv : ℕ → Scalar, (∀ i, CanonScalar e.getOrder (senv i)) → ∀ t t' : GExpr, (t.Scalars fun k => k.NoPow ∧ k.NoSq) →
    (t'.Scalars fun k => k.NoPow ∧ k.NoSq) →
    ((t.Scalars (fun k => residue e.getOrder senv k ≠ 0) ∧ t'.Scalars fun k => residue e.getOrder senv k ≠ 0) ∨ prof = .release) →
    (do (← t.runM prof e env senv).eq (← t'.runM prof e env senv)) =
      R.ok (decide (t.log (residue e.getOrder senv) l = t'.log (residue e.getOrder senv) l)) := by
  intro c hc
  obtain ⟨hp, e, he, hv⟩ := C49_montgomery c hc
  have h2 : ∀ c ∈ montgomeryList, (do return (← c.1).getOrder : R ℕ) ≠ R.ok 2 := by decide +kernel
  have hr2 : e.getOrder ≠ 2 := fun hr => h2 c hc (by rw [he, R.ok_bind, hr]; rfl)
  obtain ⟨G, g, hG, hg, ho⟩ := hv.generator
  exact ⟨hp, e, g, he, ho, fun prof env l henv senv hs t t' ht ht' h0 =>
    C121_montgomery_log c.2 e hv hr2 prof G g hG hg ho env l henv senv hs t t' ht ht' h0⟩

/-- C121 on the named Edwards curves: any two programs over multiples of the generator are `==` exactly if the multiples computed modulo the order are equal. -/
theorem _root_.Redox.Props.C121_named_edwards : ∀ c ∈ edwardsList, ∃ (_ : Fact c.2.Prime) (e : Edwards.Curve) (_ : ECurve c.2 e) (g : eGroup c.2 e),
    c.1 = R.ok e ∧ addOrderOf g = e.getOrder ∧
    ∀ (prof : Profile) (env : ℕ → Edwards.Point) (l : ℕ → ZMod e.getOrder), (∀ i, EDenotes c.2 e (env i) ((l i).val • g)) →
    ∀ senv : ℕ → Scalar, (∀ i, CanonScalar e.getOrder (senv i)) → ∀ t t' : GExpr, (t.Scalars fun k => k.NoPow ∧ k.NoSq) →
    (t'.Scalars fun k => k.NoPow ∧ k.NoSq) →
    ((t.Scalars (fun k => residue e.getOrder senv k ≠ 0) ∧ t'.Scalars fun k => residue e.getOrder senv k ≠ 0) ∨ prof = .release) →
    (do (← t.runE prof e env senv).eq (← t'.runE prof e env senv)) =
      R.ok (decide (t.log (residue e.getOrder senv) l = t'.log (residue e.getOrder senv) l)) := by
  intro c hc
  obtain ⟨hp, e, he, hv⟩ := C49_edwards c hc
  have h2 : ∀ c ∈ edwardsList, (do return (← c.1).getOrder : R ℕ) ≠ R.ok 2 := by decide +kernel
  have hr2 : e.getOrder ≠ 2 := fun hr => h2 c hc (by rw [he, R.ok_bind, hr]; rfl)
  obtain ⟨G, g, hG, hg, ho⟩ := hv.generator
  have := hv.curve
  exact ⟨hp, e, hv.curve, g, he, ho, fun prof env l henv senv hs t t' ht ht' h0 =>
    C121_edwards_log c.2 e hv hr2 prof G g hG hg ho env l henv senv hs t t' ht ht' h0⟩

end Redox.Props.Programs
