import Verif.Proofs.FieldTraceNew
import Verif.Props.EdwMapProps
import Verif.Props.IsogenyProps

/-!
# C109: the field operations performed by the maps to curves

`Model/FieldTrace.lean` adds to each map the list of the field operations it calls, with the exponents of powers. Here: forgetting the list gives the map
back, and the list is the same for all inputs, or it is not.
-/

namespace Redox.Props

open Spec FT

/-- The elements stored in the curve belong to the field with modulus `p`. -/
structure WCurveOver (p : ℕ) (e : Weierstrass.Curve) : Prop where
  f : e.f = Fp.new p
  a : e.a.f = Fp.new p
  b : e.b.f = Fp.new p

/-- The elements stored in the curve belong to the field with modulus `p`. -/
structure MCurveOver (p : ℕ) (e : Montgomery.Curve) : Prop where
  f : e.f = Fp.new p
  a : e.a.f = Fp.new p
  b : e.b.f = Fp.new p
  s : e.s.f = Fp.new p

/-- The elements stored in the curve belong to the field with modulus `p`. -/
structure ECurveOver (p : ℕ) (e : Edwards.Curve) : Prop where
  f : e.f = Fp.new p
  a : e.a.f = Fp.new p
  d : e.d.f = Fp.new p

/-- The elements stored in the isogeny belong to the field with modulus `p`. -/
structure IsoOver (p : ℕ) (m : IsoMap) : Prop where
  e0 : WCurveOver p m.e0
  e1 : WCurveOver p m.e1
  coeffs : ∀ c ∈ m.x_num ++ m.x_den ++ m.y_num ++ m.y_den, c.f = Fp.new p

/-- C109, forgetting the list of operations gives the maps of the library, for all arguments. -/
theorem C109_same (u : FpElt) :
    (∀ m : Weierstrass.SSWU, (m.mapF u).out = m.map u) ∧ (∀ m : Weierstrass.SVDW, (m.mapF u).out = m.map u) ∧
    (∀ m : Montgomery.Ell2, (m.mapF u).out = m.map u) ∧
    (∀ (iso : IsoMap) (m : Weierstrass.SSWU), (Weierstrass.SSWUAB0.mapF iso m u).out = Weierstrass.SSWUAB0.map ⟨iso.toIsogeny, m⟩ u) ∧
    (∀ (r : Ed2Mt25519) (m : Montgomery.Ell2), (Edwards.Ell2.mapF25519 r m u).out = Edwards.Ell2.map ⟨r.toRationalMap, m⟩ u) ∧
    (∀ (r : Ed4isoMt448) (m : Montgomery.Ell2), (Edwards.Ell2.mapF448 r m u).out = Edwards.Ell2.map ⟨r.toRationalMap, m⟩ u) := by
  refine ⟨fun m => out_sswu m u, fun m => out_svdw m u, fun m => out_ell2 m u, fun iso m => ?_, fun r m => ?_, fun r m => ?_⟩
  · simp only [Weierstrass.SSWUAB0.mapF, out_bind, out_sswu, out_push]; rfl
  · simp only [Edwards.Ell2.mapF25519, out_bind, out_ell2, out_pull25519]; rfl
  · simp only [Edwards.Ell2.mapF448, out_bind, out_ell2, out_pull448]; rfl

/-- C109, SSWU: the operations depend on the modulus alone, not on the input, the curve or `Z`. -/
theorem C109_sswu : ∃ t : ℕ → List FpOp, ∀ p, 3 ≤ p → p % 4 = 3 ∨ p % 8 = 5 → ∀ (e : Weierstrass.Curve) (z u : FpElt) (m : Weierstrass.SSWU),
    WCurveOver p e → z.f = Fp.new p → u.f = Fp.new p → Weierstrass.SSWU.new e z = R.ok m → (m.mapF u).ops = t p :=
  ⟨sswuOps, fun p h3 hs e _ _ _ he hz hu hm => sswu_ops (f := Fp.new p) h3 hs (sswu_new ⟨he.f, he.a, he.b⟩ hz hm).2 hu⟩

/-- C109, SVDW: the operations depend on the modulus alone, not on the input, the curve or `Z`. -/
theorem C109_svdw : ∃ t : ℕ → List FpOp, ∀ p, 3 ≤ p → p % 4 = 3 ∨ p % 8 = 5 → ∀ (e : Weierstrass.Curve) (z u : FpElt) (m : Weierstrass.SVDW),
    WCurveOver p e → z.f = Fp.new p → u.f = Fp.new p → Weierstrass.SVDW.new e z = R.ok m → (m.mapF u).ops = t p :=
  ⟨svdwOps, fun p h3 hs e _ _ _ he hz hu hm => svdw_ops (f := Fp.new p) h3 hs (svdw_new ⟨he.f, he.a, he.b⟩ hz hm).2 hu⟩

/-- C109, Elligator 2 on Montgomery curves: the operations depend on the modulus alone, not on the input, the curve or `Z`. -/
theorem C109_ell2 : ∃ t : ℕ → List FpOp, ∀ p, 3 ≤ p → p % 4 = 3 ∨ p % 8 = 5 → ∀ (e : Montgomery.Curve) (z u : FpElt) (m : Montgomery.Ell2),
    MCurveOver p e → z.f = Fp.new p → u.f = Fp.new p → Montgomery.Ell2.new e z = R.ok m → (m.mapF u).ops = t p :=
  ⟨ell2Ops, fun p h3 hs e _ _ _ he hz hu hm => ell2_ops (f := Fp.new p) h3 hs (ell2_new ⟨he.f, he.a, he.b, he.s⟩ hz hm).2 hu⟩

/-- C109, SSWU followed by an isogeny: for each isogeny the operations of every run that returns depend on the modulus alone, not on the input or
`Z`. -/
theorem C109_sswuab0 (iso : IsoMap) : ∃ t : ℕ → List FpOp, ∀ p, 3 ≤ p → p % 4 = 3 ∨ p % 8 = 5 → IsoOver p iso →
    ∀ (z u : FpElt) (m : Weierstrass.SSWU) (P : Weierstrass.Point), z.f = Fp.new p → u.f = Fp.new p → Weierstrass.SSWU.new iso.e0 z = R.ok m →
      Weierstrass.SSWUAB0.map ⟨iso.toIsogeny, m⟩ u = R.ok P → (Weierstrass.SSWUAB0.mapF iso m u).ops = t p := by
  refine ⟨fun p => sswuOps p ++ isoOps p iso.x_num.length iso.x_den.length iso.y_num.length iso.y_den.length,
    fun p h3 hs hi z u m P hz hu hm hP => ?_⟩
  have hm' := (sswu_new (f := Fp.new p) ⟨hi.e0.f, hi.e0.a, hi.e0.b⟩ hz hm).2
  simp only [Weierstrass.SSWUAB0.map, R.bind_eq_ok] at hP
  obtain ⟨Q, hQ, -⟩ := hP
  rw [← out_sswu] at hQ
  have hc : ∀ c, (c ∈ iso.x_num ∨ c ∈ iso.x_den ∨ c ∈ iso.y_num ∨ c ∈ iso.y_den) → In (Fp.new p) c := fun c hc => hi.coeffs c (by
    simp only [List.mem_append]; tauto)
  rw [Weierstrass.SSWUAB0.mapF, bind_ok hQ, sswu_ops (f := Fp.new p) h3 hs hm' hu,
    push_ops (f := Fp.new p) (show 2 ≤ p by omega) ⟨hi.e0.f, ⟨hi.e1.f, hi.e1.a, hi.e1.b⟩, fun c h => hc c (by tauto), fun c h => hc c (by tauto),
      fun c h => hc c (by tauto), fun c h => hc c (by tauto)⟩ (sswu_in (f := Fp.new p) h3 hs hm' hu hQ).2]
  rfl

theorem one_not_zero {p : ℕ} (h : 2 ≤ p) {a : FpElt} (ha : (Fp.new p).one = R.ok a) : a.isZero = false := by
  have e : (1 : ℤ).fmod p = 1 := by rw [Int.fmod_eq_emod_of_nonneg _ (by omega), Int.emod_eq_of_lt (by omega) (by omega)]
  have hm : Big.modFloor 1 p = R.ok 1 := by rw [Big.modFloor, if_neg (by omega), e]
  have ha' : (Big.modFloor 1 p >>= fun n => R.ok (⟨n, Fp.new p⟩ : FpElt)) = R.ok a := ha
  rw [hm, R.ok_bind, R.ok.injEq] at ha'
  subst ha'
  rfl

/-- C109, Elligator 2 on Edwards curves through the 4-isogeny of edwards448: the operations of every run that returns depend on the modulus alone. -/
theorem C109_edwards448 : ∃ t : ℕ → List FpOp, ∀ p, 3 ≤ p → p % 4 = 3 ∨ p % 8 = 5 → ∀ (r : Ed4isoMt448) (z u : FpElt) (m : Montgomery.Ell2)
    (P : Edwards.Point), ECurveOver p r.e0 → MCurveOver p r.e1 → z.f = Fp.new p → u.f = Fp.new p → Montgomery.Ell2.new r.e1 z = R.ok m →
      Edwards.Ell2.map ⟨r.toRationalMap, m⟩ u = R.ok P → (Edwards.Ell2.mapF448 r m u).ops = t p := by
  refine ⟨fun p => ell2Ops p ++ pull448Ops, fun p h3 hs r z u m P h0 h1 hz hu hm hP => ?_⟩
  have hm' := (ell2_new (f := Fp.new p) ⟨h1.f, h1.a, h1.b, h1.s⟩ hz hm).2
  simp only [Edwards.Ell2.map, R.bind_eq_ok] at hP
  obtain ⟨Q, hQ, -⟩ := hP
  rw [← out_ell2] at hQ
  obtain ⟨-, hi, h⟩ := ell2_in (f := Fp.new p) h3 hs hm' hu hQ
  have hz0 : Q.isZero = false := by rw [Montgomery.Point.isZero, one_not_zero (by omega) h, Bool.and_false]
  rw [Edwards.Ell2.mapF448, bind_ok hQ, ell2_ops (f := Fp.new p) h3 hs hm' hu,
    pull448_ops (f := Fp.new p) (show 0 < p by omega) ⟨h0.f, h0.a, h0.d⟩ hi hz0]
  rfl

/-- C109, Elligator 2 on Edwards curves through the birational map of edwards25519: the operations depend on the modulus alone for all inputs whose
image on the Montgomery curve has an ordinate other than 0. Partial: the others are in `C109_refuted_25519`. -/
theorem C109_edwards25519_partial : ∃ t : ℕ → List FpOp, ∀ p, 3 ≤ p → p % 4 = 3 ∨ p % 8 = 5 → ∀ (r : Ed2Mt25519) (z u : FpElt) (m : Montgomery.Ell2)
    (Q : Montgomery.Point), ECurveOver p r.e0 → MCurveOver p r.e1 → r.invsqr_d.f = Fp.new p → z.f = Fp.new p → u.f = Fp.new p →
      Montgomery.Ell2.new r.e1 z = R.ok m → m.map u = R.ok Q → Q.c.y.n ≠ 0 → (Edwards.Ell2.mapF25519 r m u).ops = t p := by
  refine ⟨fun p => ell2Ops p ++ pull25519Ops, fun p h3 hs r z u m Q h0 h1 hd hz hu hm hQ hy => ?_⟩
  have hm' := (ell2_new (f := Fp.new p) ⟨h1.f, h1.a, h1.b, h1.s⟩ hz hm).2
  rw [← out_ell2] at hQ
  obtain ⟨-, hi, h⟩ := ell2_in (f := Fp.new p) h3 hs hm' hu hQ
  have hz0 : Q.isZero = false := by rw [Montgomery.Point.isZero, one_not_zero (by omega) h, Bool.and_false]
  have ht : Q.isTwoTorsion = false := by
    rw [Montgomery.Point.isTwoTorsion, show Q.c.y.isZero = false from beq_eq_false_iff_ne.mpr hy, Bool.false_and]
  rw [Edwards.Ell2.mapF25519, bind_ok hQ, ell2_ops (f := Fp.new p) h3 hs hm' hu,
    pull25519_ops (f := Fp.new p) (show 0 < p by omega) ⟨h0.f, h0.a, h0.d⟩ hd hi hz0 ht]
  rfl

open Inst in
/-- C109, edwards25519: the operations are the same for all inputs except 0. -/
theorem C109_named25519_partial : ∃ (r : Ed2Mt25519) (m : Montgomery.Ell2) (t : List FpOp),
    edwards25519_to_curve25519 = R.ok r ∧ (do Montgomery.Ell2.new r.e1 (← r.e1.getField.fromPrim 2)) = R.ok m ∧
    ∀ u, Canon curve25519_p u → u.n ≠ 0 → (Edwards.Ell2.mapF25519 r m u).ops = t := by
  classical
  obtain ⟨t, ht⟩ := C109_edwards25519_partial
  have hz : Canon curve25519_p ⟨2, ⟨curve25519_p⟩⟩ := ⟨rfl, by decide +kernel, by decide +kernel⟩
  have h2 : val curve25519_p ⟨2, ⟨curve25519_p⟩⟩ = 2 := by simp [Spec.val]
  have hzn : ¬ IsSquare (2 : ZMod curve25519_p) := by
    have := NoRoot.not_isSquare_of_pow (p := curve25519_p) 2 (by decide +kernel) (by decide +kernel)
    simpa using this
  have hm1 : IsSquare (-1 : ZMod curve25519_p) := ZMod.exists_sq_eq_neg_one_iff.2 (by decide +kernel)
  have hd : ¬ IsSquare (486662 ^ 2 - 4 : ZMod curve25519_p) := by
    have := NoRoot.not_isSquare_of_pow (p := curve25519_p) (486662 ^ 2 - 4) (by decide +kernel) (by decide +kernel)
    norm_num at this ⊢
    exact this
  have hel : Montgomery.Ell2.new Bir.map25519.e1 ⟨2, ⟨curve25519_p⟩⟩ =
    R.ok ⟨curve25519, ⟨2, ⟨curve25519_p⟩⟩, ⟨486662, ⟨curve25519_p⟩⟩, ⟨1, ⟨curve25519_p⟩⟩⟩ := by decide +kernel
  refine ⟨Bir.map25519, ⟨curve25519, ⟨2, ⟨curve25519_p⟩⟩, ⟨486662, ⟨curve25519_p⟩⟩, ⟨1, ⟨curve25519_p⟩⟩⟩, t curve25519_p, Bir.map25519_eq, ?_, fun u hu hu0 => ?_⟩
  rotate_left
  · have ha : val curve25519_p Bir.map25519.e1.a = 486662 := by simp [Spec.val, Bir.map25519, curve25519]
    have hb : val curve25519_p Bir.map25519.e1.b = 1 := by simp [Spec.val, Bir.map25519, curve25519]
    obtain ⟨Q, hQ, -, -, -, hy, -, hx, hc, -⟩ := C43_map_partial curve25519_p Bir.map25519.e1 Bir.map25519_ok.e1 (by rw [hb]; ring) (Or.inr (by decide +kernel)) _ u
      hz (by rw [h2]; exact hzn) hu _ hel
    refine ht curve25519_p (by decide +kernel) (Or.inr (by decide +kernel)) Bir.map25519 _ u _ Q ⟨rfl, rfl, rfl⟩ ⟨rfl, rfl, rfl, rfl⟩ rfl rfl ?_ hel hQ fun h0 => ?_
    · exact hu.1
    · have hy0 : val curve25519_p Q.c.y = 0 := by rw [Spec.val, h0]; simp
      rw [hy0, ha, hb] at hc
      rw [ha, hb, h2] at hx
      have hxx : val curve25519_p Q.c.x = 0 := by
        by_contra hne
        apply hd
        refine ⟨2 * val curve25519_p Q.c.x + 486662, ?_⟩
        have : val curve25519_p Q.c.x * (val curve25519_p Q.c.x ^ 2 + 486662 * val curve25519_p Q.c.x + 1) = 0 := by linear_combination -hc
        have h1 := (mul_eq_zero.mp this).resolve_left hne
        linear_combination -4 * h1
      rw [hxx, one_mul, ell2X] at hx
      have hu' : val curve25519_p u ≠ 0 := fun h => hu0 (by
        rw [Spec.val, ZMod.intCast_zmod_eq_zero_iff_dvd] at h
        exact Int.eq_zero_of_dvd_of_nonneg_of_lt hu.2.1 hu.2.2 h)
      have hexc : 1 + 2 * val curve25519_p u ^ 2 ≠ 0 := fun h => by
        obtain ⟨i, hi⟩ := hm1
        refine hzn ⟨i / val curve25519_p u, ?_⟩
        field_simp
        linear_combination h + hi
      have hA : (486662 : ZMod curve25519_p) ≠ 0 := by decide +kernel
      have h20 : (2 : ZMod curve25519_p) ≠ 0 := by decide +kernel
      rw [ell2X1, if_neg hexc, div_one] at hx
      split_ifs at hx
      · rw [eq_comm, div_eq_zero_iff] at hx
        exact hx.elim (fun h => hA (neg_eq_zero.mp h)) hexc
      · have hx' : 486662 * (2 * val curve25519_p u ^ 2) = 0 := by
          rw [eq_comm, sub_eq_zero, neg_div, neg_neg, div_eq_iff hexc] at hx
          linear_combination -hx
        simp [hA, h20, hu'] at hx'
  · decide +kernel

open Inst in
/-- C109 is false for the map to edwards25519: the input 0 is sent to the point of order two, which takes other operations. -/
theorem C109_refuted_25519 : ∃ (r : Ed2Mt25519) (m : Montgomery.Ell2),
    edwards25519_to_curve25519 = R.ok r ∧ (do Montgomery.Ell2.new r.e1 (← r.e1.getField.fromPrim 2)) = R.ok m ∧
    (Edwards.Ell2.mapF25519 r m ⟨0, ⟨curve25519_p⟩⟩).ops.count .mul + 6 = (Edwards.Ell2.mapF25519 r m ⟨1, ⟨curve25519_p⟩⟩).ops.count .mul := by
  refine ⟨Bir.map25519, ⟨curve25519, ⟨2, ⟨curve25519_p⟩⟩, ⟨486662, ⟨curve25519_p⟩⟩, ⟨1, ⟨curve25519_p⟩⟩⟩, ?_, ?_, ?_⟩
  · exact Bir.map25519_eq
  · decide +kernel
  · decide +kernel

end Redox.Props
