import Verif.Math.Ell2
import Verif.Props.NamedMaps

/-!
# C70: which field elements have the same Elligator 2 image, and which points are images

All statements are for Montgomery curves with `b = 1`; for other `b` the map panics (`C43_refuted_b`).
-/

set_option maxRecDepth 100000

namespace Redox.Props.Map

open Spec Montgomery MLink Ell2Math

section
variable {p : ℕ} [Fact p.Prime] {e : Curve}

theorem mDenotes_unique {P : Point} {A B : (mGroup p e).Point} (hA : MDenotes p e P A) (hB : MDenotes p e P B) : A = B := by
  classical
  have h1 := Mo.eq_of_denotes P P A B hA hB
  rw [Mo.eq_of_denotes P P A A hA hA, R.ok.injEq] at h1
  simpa using h1

/-- The result of the map, with the rule for the ordinate. -/
theorem ell2_pt (he : MCurve p e) (hb : val p e.b = 1) (hs : p % 4 = 3 ∨ p % 8 = 5)
    (z u : FpElt) (hz : Canon p z) (hzn : ¬ IsSquare (val p z)) (hu : Canon p u) (m : Ell2) (hm : Ell2.new e z = R.ok m) :
    ∃ x y, ∃ hn : (mGroup p e).Nonsingular x y, MReturns p e (m.map u) (.some _ y hn) ∧
      IsEll2 (val p e.a) (val p z) (val p u) x y := by
  obtain ⟨P, h1, h2, h3, h4, h5, h6, h7, h8, h9⟩ := C43_map_partial p e he (by rw [hb]; ring) hs z u hz hzn hu m hm
  obtain ⟨y, hn, -, P', h1', hd⟩ := C43_group_partial p e he hb hs z u hz hzn hu m hm
  rw [h1, R.ok.injEq] at h1'
  subst h1'
  refine ⟨_, y, hn, ⟨P, h1, hd⟩, rfl, ?_, ?_⟩
  · obtain ⟨-, -, -, -, -, e1, e2⟩ := hd
    have hz1 : val p P.c.z = 1 := by rw [h6]; simp [val]
    rw [hz1, mul_one] at e1 e2
    rw [hb, one_mul] at h8
    rw [mrhs_one, ← e1, ← e2, h8]
  · obtain ⟨-, -, -, -, -, e1, e2⟩ := hd
    have hz1 : val p P.c.z = 1 := by rw [h6]; simp [val]
    rw [hz1, mul_one] at e2
    rw [hb, div_one, e2] at h9
    exact h9

theorem a_ne (m : Ell2) {z : FpElt} (he : MCurve p e) (hm : Ell2.new e z = R.ok m) : val p e.a ≠ 0 := by
  intro h
  rw [(C43_new p e he z).2 h] at hm
  cases hm

end

section
variable (p : ℕ) [Fact p.Prime] (e : Curve)

open Classical in
/-- C70. Elligator 2 is injective up to sign: two inputs give points that compare equal exactly when the inputs are equal or
opposite, or both are exceptional, that is `u (1 + Z u²) = 0`. -/
theorem _root_.Redox.Props.C70_fibres (he : MCurve p e) (hb : val p e.b = 1) (hs : p % 4 = 3 ∨ p % 8 = 5)
    (z u v : FpElt) (hz : Canon p z) (hzn : ¬ IsSquare (val p z)) (hu : Canon p u) (hv : Canon p v) (m : Ell2)
    (hm : Ell2.new e z = R.ok m) :
    (do (← m.map u).eq (← m.map v)) = R.ok (decide (val p u = val p v ∨ val p u = -val p v ∨
      (val p u * (1 + val p z * val p u ^ 2) = 0 ∧ val p v * (1 + val p z * val p v ^ 2) = 0))) := by
  have : Fact (2 < p) := ⟨MLink.two_lt_of he⟩
  obtain ⟨x, y, hn, ⟨P, hP, hPd⟩, h⟩ := ell2_pt he hb hs z u hz hzn hu m hm
  obtain ⟨x', y', hn', ⟨Q, hQ, hQd⟩, h'⟩ := ell2_pt he hb hs z v hz hzn hv m hm
  have hf := fibre (a_ne m he hm) hzn h h' (fun y hy => by
    rw [neg_parity hy]; have := Nat.mod_two_eq_zero_or_one y.val; omega)
  simp only [hP, hQ, R.ok_bind]
  rw [Mo.eq_of_denotes P Q _ _ hPd hQd, R.ok.injEq, decide_eq_decide, WeierstrassCurve.Affine.Point.some.injEq, hf, or_assoc]
  unfold Exc
  rw [mul_eq_zero, mul_eq_zero]

/-- C70. The images: no input gives the point at infinity, and the affine point `(x, y)` is an image exactly when
`-Z x (x + a)` is a square, except that of the two points with `x = -a` only the one with odd ordinate is an image, and that
`(0, 0)` is an image only if `-a` is not a square. -/
theorem _root_.Redox.Props.C70_image (he : MCurve p e) (hb : val p e.b = 1) (hs : p % 4 = 3 ∨ p % 8 = 5)
    (z : FpElt) (hz : Canon p z) (hzn : ¬ IsSquare (val p z)) (m : Ell2) (hm : Ell2.new e z = R.ok m) :
    (∀ u, Canon p u → ¬ MReturns p e (m.map u) 0) ∧
    ∀ x y (hn : (mGroup p e).Nonsingular x y), (∃ u, Canon p u ∧ MReturns p e (m.map u) (.some x y hn)) ↔
      IsSquare (-val p z * x * (x + val p e.a)) ∧ (x = -val p e.a → y.val % 2 = 1) ∧ (x = 0 → ¬ IsSquare (-val p e.a)) := by
  have : Fact (2 < p) := ⟨MLink.two_lt_of he⟩
  have uniq : ∀ r A B, MReturns p e r A → MReturns p e r B → A = B := by
    rintro r A B ⟨P, hP, hA⟩ ⟨Q, hQ, hB⟩
    rw [hP, R.ok.injEq] at hQ
    subst hQ
    exact mDenotes_unique hA hB
  refine ⟨fun u hu h0 => ?_, fun x y hn => ?_⟩
  · obtain ⟨x, y, hn, h, -⟩ := ell2_pt he hb hs z u hz hzn hu m hm
    exact WeierstrassCurve.Affine.Point.some_ne_zero hn (uniq _ _ _ h h0)
  · have heq : y ^ 2 = x ^ 3 + val p e.a * x ^ 2 + x := by
      have := hn.1
      rw [WeierstrassCurve.Affine.equation_iff] at this
      linear_combination this
    rw [← image (a_ne m he hm) hzn heq]
    constructor
    · rintro ⟨u, hu, h⟩
      obtain ⟨x', y', hn', h', hE⟩ := ell2_pt he hb hs z u hz hzn hu m hm
      have := uniq _ _ _ h h'
      rw [WeierstrassCurve.Affine.Point.some.injEq] at this
      obtain ⟨rfl, rfl⟩ := this
      exact ⟨_, hE⟩
    · rintro ⟨u, hE⟩
      have hu : Canon p (el u) := canon_iff.2 ⟨u, rfl⟩
      refine ⟨el u, hu, ?_⟩
      obtain ⟨x', y', hn', h', hE'⟩ := ell2_pt he hb hs z (el u) hz hzn hu m hm
      have hval : val p (el u) = u := by simp
      rw [hval] at hE'
      obtain ⟨rfl, rfl⟩ := (fibre (a_ne m he hm) hzn hE hE' (fun y hy => by
        rw [neg_parity hy]; have := Nat.mod_two_eq_zero_or_one y.val; omega)).2 (Or.inl (Or.inl rfl))
      exact h'

end

/-! ## The named curves -/

section
variable {p : ℕ} [Fact p.Prime] {e : Curve}

/-- The points that are images. -/
def ellImages (p : ℕ) [Fact p.Prime] (e : Curve) (m : Ell2) : Set (mGroup p e).Point :=
  {A | ∃ u, Canon p u ∧ MReturns p e (m.map u) A}

/-- Counting images when the exceptional inputs are those in `E`. -/
theorem count_images (he : MCurve p e) (hb : val p e.b = 1) (hs : p % 4 = 3 ∨ p % 8 = 5) (z : FpElt) (hz : Canon p z)
    (hzn : ¬ IsSquare (val p z)) (m : Ell2) (hm : Ell2.new e z = R.ok m) (E : Finset (ZMod p))
    (hE : ∀ u, Exc (val p z) u ↔ u = 0 ∨ u ∈ E ∨ -u ∈ E) (hlt : ∀ u ∈ E, 2 * u.val < p) (h0 : (0 : ZMod p) ∉ E) :
    (ellImages p e m).ncard + E.card = (p + 1) / 2 := by
  classical
  have : Fact (2 < p) := ⟨MLink.two_lt_of he⟩
  have hpar : ∀ y : ZMod p, y ≠ 0 → (-y).val % 2 ≠ y.val % 2 := fun y hy => by
    rw [neg_parity hy]; have := Nat.mod_two_eq_zero_or_one y.val; omega
  choose X Y hn hret hell using fun u : ZMod p => ell2_pt he hb hs z (el u) hz hzn (canon_iff.2 ⟨u, rfl⟩) m hm
  simp only [val_el] at hell
  let f : ZMod p → (mGroup p e).Point := fun u => .some _ (Y u) (hn u)
  have hf : ∀ u v, f u = f v ↔ (u = v ∨ u = -v) ∨ (Exc (val p z) u ∧ Exc (val p z) v) := by
    intro u v
    rw [← fibre (a_ne m he hm) hzn (hell u) (hell v) hpar]
    exact (WeierstrassCurve.Affine.Point.some.injEq _ _ _ _ _ _).to_iff
  let S : Finset (ZMod p) := Finset.univ.filter (fun u => 2 * u.val < p)
  have hneg : ∀ u : ZMod p, u ≠ 0 → (-u).val = p - u.val := fun u hu => by
    have : NeZero u := ⟨hu⟩
    exact ZMod.val_neg_of_ne_zero u
  have hES : E ⊆ S := fun u hu => Finset.mem_filter.2 ⟨Finset.mem_univ _, hlt u hu⟩
  have himg : ellImages p e m = ↑((S \ E).image f) := by
    ext A
    rw [Finset.coe_image]
    constructor
    · rintro ⟨u, hu, P, hP, hPA⟩
      obtain ⟨u', rfl⟩ := canon_iff.1 hu
      obtain ⟨Q, hQ, hQf⟩ := hret u'
      rw [hP, R.ok.injEq] at hQ
      subst hQ
      obtain rfl : A = f u' := mDenotes_unique hPA hQf
      by_cases hx : Exc (val p z) u'
      · refine ⟨0, ?_, (hf _ _).2 (Or.inr ⟨Or.inl rfl, hx⟩)⟩
        rw [Finset.mem_coe, Finset.mem_sdiff, Finset.mem_filter]
        exact ⟨⟨Finset.mem_univ _, by rw [ZMod.val_zero]; omega⟩, h0⟩
      · have hnE : u' ∉ E ∧ -u' ∉ E := by
          rw [hE] at hx; push Not at hx; exact hx.2
        have hu0 : u' ≠ 0 := by
          rintro rfl; exact hx (Or.inl rfl)
        by_cases h2 : 2 * u'.val < p
        · exact ⟨u', by rw [Finset.mem_coe, Finset.mem_sdiff]; exact ⟨Finset.mem_filter.2 ⟨Finset.mem_univ _, h2⟩, hnE.1⟩, rfl⟩
        · refine ⟨-u', ?_, (hf _ _).2 (Or.inl (Or.inr rfl))⟩
          rw [Finset.mem_coe, Finset.mem_sdiff, Finset.mem_filter]
          refine ⟨⟨Finset.mem_univ _, ?_⟩, hnE.2⟩
          rw [hneg u' hu0]
          have := ZMod.val_lt u'
          have : p % 2 = 1 := by omega
          omega
    · rintro ⟨u, -, rfl⟩
      exact ⟨el u, canon_iff.2 ⟨u, rfl⟩, hret u⟩
  have hinj : Set.InjOn f ↑(S \ E) := by
    intro u hu v hv huv
    rw [Finset.mem_coe, Finset.mem_sdiff, Finset.mem_filter] at hu hv
    have lem : ∀ u, 2 * u.val < p → u ∉ E → Exc (val p z) u → u = 0 := by
      intro u h1 h2 h3
      by_contra h0
      rcases (hE u).1 h3 with h | h | h
      · exact h0 h
      · exact h2 h
      · have := hlt _ h
        rw [hneg u h0] at this
        have := ZMod.val_lt u
        omega
    rcases (hf u v).1 huv with (h | h) | ⟨h1, h2⟩
    · exact h
    · by_cases hv0 : v = 0
      · rw [h, hv0, neg_zero]
      · have := hneg v hv0
        rw [← h] at this
        have := ZMod.val_lt v
        omega
    · rw [lem u hu.1.2 hu.2 h1, lem v hv.1.2 hv.2 h2]
  have hScard : S.card = (p + 1) / 2 := by
    have : S.image ZMod.val = Finset.range ((p + 1) / 2) := by
      ext n
      rw [Finset.mem_image, Finset.mem_range]
      constructor
      · rintro ⟨u, hu, rfl⟩
        have := (Finset.mem_filter.1 hu).2
        omega
      · intro h
        refine ⟨(n : ZMod p), Finset.mem_filter.2 ⟨Finset.mem_univ _, ?_⟩, ?_⟩
        · rw [ZMod.val_cast_of_lt (by omega)]; omega
        · rw [ZMod.val_cast_of_lt (by omega)]
    rw [← Finset.card_range ((p + 1) / 2), ← this, Finset.card_image_of_injective _ (ZMod.val_injective p)]
  rw [himg, Set.ncard_coe_finset, Finset.card_image_of_injOn hinj, Finset.card_sdiff_of_subset hES, hScard]
  have := Finset.card_le_card hES
  omega

end

open Redox.Inst

open Classical in
/-- C70 on `CURVE25519` with `Z = 2`: the images of `u` and `v` compare equal exactly when `u = ±v`, and there are
`(p + 1) / 2` images. -/
theorem _root_.Redox.Props.C70_curve25519 : ∃ (_ : Fact (2 ^ 255 - 19).Prime) (e : Curve) (m : Ell2),
    CURVE25519 = R.ok e ∧ (do Ell2.new e (← e.f.fromPrim 2)) = R.ok m ∧
    (∀ u v, Canon (2 ^ 255 - 19) u → Canon (2 ^ 255 - 19) v →
      (do (← m.map u).eq (← m.map v)) =
        R.ok (decide (val (2 ^ 255 - 19) u = val (2 ^ 255 - 19) v ∨ val (2 ^ 255 - 19) u = -val (2 ^ 255 - 19) v))) ∧
    (ellImages (2 ^ 255 - 19) e m).ncard = 2 ^ 254 - 9 := by
  have hc : (2 ^ 254 - 9 : ℕ) = (2 ^ 255 - 19 + 1) / 2 := by norm_num
  rw [hc, Inst.c25519_p_eq]
  have hs : curve25519_p % 4 = 3 ∨ curve25519_p % 8 = 5 := by decide +kernel
  have hns : ¬ IsSquare (2 : ZMod curve25519_p) := by
    have := NoRoot.not_isSquare_of_pow (p := curve25519_p) 2 (by decide +kernel) (by decide +kernel)
    simpa using this
  have hv := curve25519_valid
  have hnew : ((do Ell2.new curve25519 (← curve25519.f.fromPrim 2)).bind fun _ => R.ok true) = R.ok true := by
    decide +kernel
  obtain ⟨m, hm, -⟩ := R.bind_eq_ok.1 hnew
  obtain ⟨z, hz, hzc, hzv⟩ := Inst.fromPrim_val hv.curve.field 2
  have hm' := hm
  rw [hz, R.ok_bind] at hm'
  have hzv' : val curve25519_p z = 2 := by rw [hzv]; norm_num
  rw [← hzv'] at hns
  have hexc : ∀ u : ZMod curve25519_p, 1 + val curve25519_p z * u ^ 2 ≠ 0 := by
    intro u h
    obtain ⟨i, hi⟩ : IsSquare (-1 : ZMod curve25519_p) :=
      ZMod.exists_sq_eq_neg_one_iff.2 (by decide +kernel)
    have hu : u ≠ 0 := by rintro rfl; simp at h
    refine hns ⟨i / u, ?_⟩
    field_simp
    linear_combination h + hi
  refine ⟨inferInstance, _, m, curve25519_eq, hm, fun u v hu hv' => ?_, ?_⟩
  · rw [C70_fibres _ _ hv.curve hv.b_one hs z u v hzc hns hu hv' m hm', R.ok.injEq, decide_eq_decide]
    constructor
    · rintro (h | h | ⟨h1, h2⟩)
      · exact Or.inl h
      · exact Or.inr h
      · left
        rw [(mul_eq_zero.1 h1).resolve_right (hexc _), (mul_eq_zero.1 h2).resolve_right (hexc _)]
    · rintro (h | h)
      · exact Or.inl h
      · exact Or.inr (Or.inl h)
  · have := count_images hv.curve hv.b_one hs z hzc hns m hm' ∅ (fun u => by
      unfold Exc; simp [hexc u]) (by simp) (by simp)
    rwa [Finset.card_empty, add_zero] at this

open Classical in
/-- C70 on `CURVE448` with `Z = -1`: the images of `u` and `v` compare equal exactly when `u = ±v` or both are in `{0, 1, -1}`,
and there are `(p - 1) / 2` images. -/
theorem _root_.Redox.Props.C70_curve448 : ∃ (_ : Fact (2 ^ 448 - 2 ^ 224 - 1).Prime) (e : Curve) (m : Ell2),
    CURVE448 = R.ok e ∧ (do Ell2.new e (← e.f.fromPrim (-1))) = R.ok m ∧
    (∀ u v, Canon (2 ^ 448 - 2 ^ 224 - 1) u → Canon (2 ^ 448 - 2 ^ 224 - 1) v →
      let U := val (2 ^ 448 - 2 ^ 224 - 1) u
      let V := val (2 ^ 448 - 2 ^ 224 - 1) v
      (do (← m.map u).eq (← m.map v)) =
        R.ok (decide (U = V ∨ U = -V ∨ ((U = 0 ∨ U = 1 ∨ U = -1) ∧ (V = 0 ∨ V = 1 ∨ V = -1))))) ∧
    (ellImages (2 ^ 448 - 2 ^ 224 - 1) e m).ncard = 2 ^ 447 - 2 ^ 223 - 1 := by
  have hc : (2 ^ 447 - 2 ^ 223 - 1 : ℕ) = (2 ^ 448 - 2 ^ 224 - 1 + 1) / 2 - 1 := by decide +kernel
  rw [hc, Inst.c448_p_eq]
  have hs : curve448_p % 4 = 3 ∨ curve448_p % 8 = 5 := by decide +kernel
  have hns : ¬ IsSquare (-1 : ZMod curve448_p) := by
    have := NoRoot.not_isSquare_of_pow (p := curve448_p) (curve448_p - 1) (by decide +kernel) (by decide +kernel)
    have e : ((curve448_p - 1 : ℕ) : ZMod curve448_p) = -1 := by
      rw [Nat.cast_sub (by decide +kernel)]; simp
    rwa [e] at this
  have hv := curve448_valid
  have hnew : ((do Ell2.new curve448 (← curve448.f.fromPrim (-1))).bind fun _ => R.ok true) = R.ok true := by
    decide +kernel
  obtain ⟨m, hm, -⟩ := R.bind_eq_ok.1 hnew
  obtain ⟨z, hz, hzc, hzv⟩ := Inst.fromPrim_val hv.curve.field (-1)
  have hm' := hm
  rw [hz, R.ok_bind] at hm'
  have hzv' : val curve448_p z = -1 := by rw [hzv]; norm_num
  rw [← hzv'] at hns
  have hexc : ∀ u : ZMod curve448_p, 1 + val curve448_p z * u ^ 2 = 0 ↔ u = 1 ∨ u = -1 := by
    intro u
    rw [hzv', ← sq_eq_one_iff]
    constructor <;> intro h <;> linear_combination -h
  refine ⟨inferInstance, _, m, curve448_eq, hm, fun u v hu hv' => ?_, ?_⟩
  · intro U V
    rw [C70_fibres _ _ hv.curve hv.b_one hs z u v hzc hns hu hv' m hm', R.ok.injEq, decide_eq_decide,
      mul_eq_zero, mul_eq_zero, hexc, hexc]
  · have hE : ∀ u, Exc (val curve448_p z) u ↔ u = 0 ∨ u ∈ ({1} : Finset (ZMod curve448_p)) ∨ -u ∈ ({1} : Finset (ZMod curve448_p)) := by
      intro u
      unfold Exc
      rw [hexc, Finset.mem_singleton, Finset.mem_singleton, neg_eq_iff_eq_neg]
    have := count_images hv.curve hv.b_one hs z hzc hns m hm' {1} hE (by
      intro u hu
      rw [Finset.mem_singleton] at hu
      rw [hu, ZMod.val_one'' (by decide +kernel)]
      decide +kernel) (by simp)
    rw [Finset.card_singleton] at this
    omega

/-- The hypotheses of the general statements are met, and both kinds of identification occur: over GF(7) with `Z = 3`,
`1 + 3·3² = 0`, so 0, 3 and 4 have one image, which differs from that of 1. -/
example : MCurve 7 Mo.toyMs ∧ val 7 Mo.toyMs.b = 1 ∧ (7 % 4 = 3 ∨ 7 % 8 = 5) ∧ ¬ IsSquare (val 7 ⟨3, ⟨7⟩⟩) ∧
    (do let m ← Ell2.new Mo.toyMs ⟨3, ⟨7⟩⟩
        return ((← (← m.map ⟨0, ⟨7⟩⟩).eq (← m.map ⟨3, ⟨7⟩⟩)), (← (← m.map ⟨1, ⟨7⟩⟩).eq (← m.map ⟨6, ⟨7⟩⟩)),
          (← (← m.map ⟨1, ⟨7⟩⟩).eq (← m.map ⟨3, ⟨7⟩⟩)))) = R.ok (true, true, false) := by
  refine ⟨Mo.toyMs_curve, by decide, by decide, ?_, by decide +kernel⟩
  rintro ⟨r, hr⟩; revert r; decide

end Redox.Props.Map
