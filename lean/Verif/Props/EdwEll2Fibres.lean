import Verif.Props.EdwMapProps
import Verif.Props.Ell2Fibres
import Verif.Props.Iso448Hom

/-!
# C76: which field elements have the same Elligator 2 image on the Edwards curves
-/

set_option maxRecDepth 100000

namespace Redox.Props.EdMap

open Spec Edw Edwards Ell2Math

section
variable (p : ℕ) [Fact p.Prime]

/-- The points that are images. -/
def edwImages (e : Edwards.Curve) [ECurve p e] (M : Ell2) : Set (eGroup p e) :=
  {A | ∃ u, Canon p u ∧ EReturns p e (M.map u) A}

theorem eDenotes_unique {p : ℕ} [Fact p.Prime] {e : Edwards.Curve} [ECurve p e] {P : Point} {A B : eGroup p e}
    (hA : EDenotes p e P A) (hB : EDenotes p e P B) : A = B := by
  classical
  have h1 := ELink.eq_of_denotes P P A B hA hB
  rw [ELink.eq_of_denotes P P A A hA hA, R.ok.injEq] at h1
  simpa using h1

theorem birational_ret (m : Ed2Mt25519) [he0 : ECurve p m.e0] (h : Ed2MtOK p m) (hs : p % 4 = 3 ∨ p % 8 = 5)
    (φ : eGroup p m.e0 ≃+ (mGroup p m.e1).Point)
    (hpull : ∀ Q B, MDenotes p m.e1 Q B → (B = φ (eTwo p m.e0) → Q.c.z.isOne) → EReturns p m.e0 (m.pull Q) (φ.symm B))
    (z : FpElt) (hz : Canon p z) (hzn : ¬ IsSquare (val p z)) (M : Ell2)
    (hM : Ell2.new m.e0 z (some m.toRationalMap) = R.ok M) (u : FpElt) (hu : Canon p u) (B : (mGroup p m.e1).Point)
    (hB : MReturns p m.e1 (M.mapToCurve.map u) B) : EReturns p m.e0 (M.map u) (φ.symm B) := by
  obtain ⟨hr, mt, hmt, hel⟩ := new_ok hM
  simp only [Ed2Mt25519.toRationalMap, R.ok.injEq] at hmt
  subst hmt
  obtain ⟨P, h1, h2, h3, h4, h5, h6, -⟩ := C43_map_partial p m.e1 h.e1 (by rw [h.b_one]; ring) hs z u hz hzn hu _ hel
  obtain ⟨Q, hQ, hQd⟩ := hB
  rw [h1, R.ok.injEq] at hQ
  subst hQ
  rw [Ell2.map, hr, h1, R.ok_bind]
  exact hpull P _ hQd (fun _ => by rw [h6]; rfl)

open Classical in
/-- C76 with the map of edwards25519: two inputs give points that compare equal exactly when the inputs are equal or opposite, or
both are exceptional, that is `u (1 + Z u²) = 0`. -/
theorem _root_.Redox.Props.C76_fibres (m : Ed2Mt25519) [he0 : ECurve p m.e0] (h : Ed2MtOK p m) (hs : p % 4 = 3 ∨ p % 8 = 5)
    (z u v : FpElt) (hz : Canon p z) (hzn : ¬ IsSquare (val p z)) (hu : Canon p u) (hv : Canon p v) (M : Ell2)
    (hM : Ell2.new m.e0 z (some m.toRationalMap) = R.ok M) :
    (do (← M.map u).eq (← M.map v)) = R.ok (decide (val p u = val p v ∨ val p u = -val p v ∨
      (val p u * (1 + val p z * val p u ^ 2) = 0 ∧ val p v * (1 + val p z * val p v ^ 2) = 0))) := by
  obtain ⟨hr, mt, hmt, hel⟩ := new_ok hM
  simp only [Ed2Mt25519.toRationalMap, R.ok.injEq] at hmt
  subst hmt
  obtain ⟨φ, hφ, -, hpull⟩ := C47_isomorphism_partial p m h
  obtain ⟨x, y, hn, hP, -⟩ := Map.ell2_pt h.e1 h.b_one hs z u hz hzn hu _ hel
  obtain ⟨x', y', hn', hQ, -⟩ := Map.ell2_pt h.e1 h.b_one hs z v hz hzn hv _ hel
  obtain ⟨S, hS, hSd⟩ := birational_ret p m h hs φ hpull z hz hzn M hM u hu _ hP
  obtain ⟨T, hT, hTd⟩ := birational_ret p m h hs φ hpull z hz hzn M hM v hv _ hQ
  rw [← C70_fibres p m.e1 h.e1 h.b_one hs z u v hz hzn hu hv _ hel]
  obtain ⟨P, hP, hPd⟩ := hP
  obtain ⟨Q, hQ, hQd⟩ := hQ
  simp only [hP, hQ, hS, hT, R.ok_bind]
  rw [Mo.eq_of_denotes P Q _ _ hPd hQd, ELink.eq_of_denotes S T _ _ hSd hTd, R.ok.injEq, decide_eq_decide,
    EmbeddingLike.apply_eq_iff_eq]

/-- The images correspond to the images on the Montgomery curve. -/
theorem images_card (m : Ed2Mt25519) [he0 : ECurve p m.e0] (h : Ed2MtOK p m) (hs : p % 4 = 3 ∨ p % 8 = 5)
    (z : FpElt) (hz : Canon p z) (hzn : ¬ IsSquare (val p z)) (M : Ell2)
    (hM : Ell2.new m.e0 z (some m.toRationalMap) = R.ok M) :
    (edwImages p m.e0 M).ncard = (Map.ellImages p m.e1 M.mapToCurve).ncard := by
  obtain ⟨hr, mt, hmt, hel⟩ := new_ok hM
  simp only [Ed2Mt25519.toRationalMap, R.ok.injEq] at hmt
  subst hmt
  obtain ⟨φ, hφ, -, hpull⟩ := C47_isomorphism_partial p m h
  have : edwImages p m.e0 M = φ.symm '' Map.ellImages p m.e1 M.mapToCurve := by
    ext A
    constructor
    · rintro ⟨u, hu, hA⟩
      obtain ⟨x, y, hn, hP, -⟩ := Map.ell2_pt h.e1 h.b_one hs z u hz hzn hu _ hel
      refine ⟨_, ⟨u, hu, hP⟩, ?_⟩
      obtain ⟨S, hS, hSd⟩ := birational_ret p m h hs φ hpull z hz hzn M hM u hu _ hP
      obtain ⟨T, hT, hTd⟩ := hA
      rw [hS, R.ok.injEq] at hT
      subst hT
      exact eDenotes_unique hSd hTd
    · rintro ⟨B, ⟨u, hu, hB⟩, rfl⟩
      exact ⟨u, hu, birational_ret p m h hs φ hpull z hz hzn M hM u hu _ hB⟩
  rw [this, Set.ncard_image_of_injective _ φ.symm.injective]

end

open Redox.Inst

open Classical in
/-- C76 on `EDWARDS25519` with `Z = 2`: the images of `u` and `v` compare equal exactly when `u = ±v`, and there are
`(p + 1) / 2` images. -/
theorem _root_.Redox.Props.C76_edwards25519 : ∃ (_ : Fact (2 ^ 255 - 19).Prime) (e : Edwards.Curve) (_ : ECurve (2 ^ 255 - 19) e)
    (M : Ell2), EDWARDS25519 = R.ok e ∧
    (do Ell2.new e (← e.getField.fromPrim 2) (some (← edwards25519_to_curve25519).toRationalMap)) = R.ok M ∧
    (∀ u v, Canon (2 ^ 255 - 19) u → Canon (2 ^ 255 - 19) v →
      (do (← M.map u).eq (← M.map v)) =
        R.ok (decide (val (2 ^ 255 - 19) u = val (2 ^ 255 - 19) v ∨ val (2 ^ 255 - 19) u = -val (2 ^ 255 - 19) v))) ∧
    (edwImages (2 ^ 255 - 19) e M).ncard = 2 ^ 254 - 9 := by
  have hc : (2 ^ 254 - 9 : ℕ) = (2 ^ 255 - 19 + 1) / 2 := by norm_num
  rw [hc, Inst.c25519_p_eq]
  have hs : curve25519_p % 4 = 3 ∨ curve25519_p % 8 = 5 := by decide +kernel
  have hns : ¬ IsSquare (2 : ZMod curve25519_p) := by
    have := NoRoot.not_isSquare_of_pow (p := curve25519_p) 2 (by decide +kernel) (by decide +kernel)
    simpa using this
  have hnew : ((do Ell2.new Bir.map25519.e0 (← Bir.map25519.e0.getField.fromPrim 2) (some Bir.map25519.toRationalMap)).bind
      fun _ => R.ok true) = R.ok true := by
    decide +kernel
  obtain ⟨M, hM, -⟩ := R.bind_eq_ok.1 hnew
  obtain ⟨z, hz, hzc, hzv⟩ := Inst.fromPrim_val (p := curve25519_p) (f := Bir.map25519.e0.getField) rfl 2
  rw [hz, R.ok_bind] at hM
  have hzv' : val curve25519_p z = 2 := by rw [hzv]; norm_num
  rw [← hzv'] at hns
  have hexc : ∀ u : ZMod curve25519_p, 1 + val curve25519_p z * u ^ 2 ≠ 0 := by
    intro u h
    obtain ⟨i, hi⟩ : IsSquare (-1 : ZMod curve25519_p) :=
      ZMod.exists_sq_eq_neg_one_iff.2 (by decide +kernel)
    have hu : u ≠ 0 := by rintro rfl; simp at h
    refine hns ⟨i / u, ?_⟩
    field_simp
    linear_combination h + hi
  refine ⟨inferInstance, Bir.map25519.e0, inferInstance, M, edwards25519_eq, ?_, fun u v hu hv' => ?_, ?_⟩
  · rw [hz, R.ok_bind, Bir.map25519_eq, R.ok_bind, hM]
  · rw [C76_fibres _ Bir.map25519 Bir.map25519_ok hs z u v hzc hns hu hv' M hM, R.ok.injEq, decide_eq_decide]
    constructor
    · rintro (h | h | ⟨h1, h2⟩)
      · exact Or.inl h
      · exact Or.inr h
      · left
        rw [(mul_eq_zero.1 h1).resolve_right (hexc _), (mul_eq_zero.1 h2).resolve_right (hexc _)]
    · rintro (h | h)
      · exact Or.inl h
      · exact Or.inr (Or.inl h)
  · rw [images_card _ Bir.map25519 Bir.map25519_ok hs z hzc hns M hM]
    obtain ⟨hr, mt, hmt, hel⟩ := new_ok hM
    simp only [Ed2Mt25519.toRationalMap, R.ok.injEq] at hmt
    subst hmt
    have := Map.count_images Bir.map25519_ok.e1 Bir.map25519_ok.b_one hs z hzc hns _ hel ∅ (fun u => by
      unfold Exc; simp [hexc u]) (by simp) (by simp)
    rwa [Finset.card_empty, add_zero] at this

/-- The preimages of a point under a homomorphism with `K` elements in the kernel. -/
theorem preimage_le {G H : Type*} [AddCommGroup G] [AddCommGroup H] (φ : G →+ H) (K : ℕ) (hK : Nat.card φ.ker = K) (hK0 : K ≠ 0)
    (B : H) : (φ ⁻¹' {B}).encard ≤ K := by
  by_cases hne : (φ ⁻¹' {B}).Nonempty
  · obtain ⟨A0, hA0⟩ := hne
    have : Finite φ.ker := Nat.finite_of_card_ne_zero (hK ▸ hK0)
    have h1 : (φ ⁻¹' {B}).encard ≤ (φ.ker : Set G).encard := by
      refine Set.encard_le_encard_of_injOn (f := fun A => A - A0) ?_ ?_
      · intro A hA
        change A - A0 ∈ φ.ker
        rw [AddMonoidHom.mem_ker, map_sub, show φ A = B from hA, show φ A0 = B from hA0, sub_self]
      · intro A _ A' _ h
        exact sub_left_injective h
    refine h1.trans ?_
    have hf : (φ.ker : Set G).Finite := Set.toFinite _
    rw [hf.encard_eq_coe, ← hK]
    exact le_of_eq rfl
  · rw [Set.not_nonempty_iff_eq_empty.1 hne]; simp

/-- The abscissa is not zero for inputs that are not exceptional. -/
theorem ell2X_ne {p : ℕ} [Fact p.Prime] {a z u : ZMod p} (ha : a ≠ 0) (hz : ¬ IsSquare z) (hu : ¬ Exc z u) : ell2X a 1 z u ≠ 0 := by
  obtain ⟨hu0, ht1⟩ := not_or.1 hu
  have hz0 : z ≠ 0 := fun h => hz (h ▸ IsSquare.zero)
  have ht0 : z * u ^ 2 ≠ 0 := mul_ne_zero hz0 (pow_ne_zero _ hu0)
  unfold ell2X ell2X1
  rw [if_neg ht1, div_one]
  split_ifs
  · exact div_ne_zero (neg_ne_zero.2 ha) ht1
  · have : -(-a / (1 + z * u ^ 2)) - a = -a * (z * u ^ 2) / (1 + z * u ^ 2) := by field_simp; ring
    rw [this]
    exact div_ne_zero (mul_ne_zero (neg_ne_zero.2 ha) ht0) ht1

/-- The canonical elements sent to a representative of `A`. -/
def edwPreimages (p : ℕ) [Fact p.Prime] (e : Edwards.Curve) [ECurve p e] (M : Ell2) (A : eGroup p e) : Set FpElt :=
  {u | Canon p u ∧ EReturns p e (M.map u) A}

/-- C76 on `EDWARDS448` with `Z = -1`: at most eight field elements are sent to any one point. The map to the curve is two to one
and the 4-isogeny identifies four points. -/
theorem _root_.Redox.Props.C76_edwards448 : ∃ (_ : Fact (2 ^ 448 - 2 ^ 224 - 1).Prime) (e : Edwards.Curve)
    (_ : ECurve (2 ^ 448 - 2 ^ 224 - 1) e) (M : Ell2), EDWARDS448 = R.ok e ∧
    (do Ell2.new e (← e.getField.fromPrim (-1)) (some (← edwards448_to_curve448).toRationalMap)) = R.ok M ∧
    ∀ A, (edwPreimages (2 ^ 448 - 2 ^ 224 - 1) e M A).encard ≤ 8 := by
  classical
  rw [Inst.c448_p_eq]
  have hs : curve448_p % 4 = 3 ∨ curve448_p % 8 = 5 := by decide +kernel
  have hns : ¬ IsSquare (-1 : ZMod curve448_p) := by
    have := NoRoot.not_isSquare_of_pow (p := curve448_p) (curve448_p - 1) (by decide +kernel) (by decide +kernel)
    have e : ((curve448_p - 1 : ℕ) : ZMod curve448_p) = -1 := by
      rw [Nat.cast_sub (by decide +kernel)]; simp
    rwa [e] at this
  have hnew : ((do Ell2.new Iso4.map448.e0 (← Iso4.map448.e0.getField.fromPrim (-1)) (some Iso4.map448.toRationalMap)).bind
      fun _ => R.ok true) = R.ok true := by
    decide +kernel
  obtain ⟨M, hM, -⟩ := R.bind_eq_ok.1 hnew
  have hzeq : Iso4.map448.e0.getField.fromPrim (-1) = R.ok ⟨curve448_p - 1, ⟨curve448_p⟩⟩ := by decide +kernel
  have hM0 : (do
      let z ← Iso4.map448.e0.getField.fromPrim (-1)
      Ell2.new Iso4.map448.e0 z (some (← edwards448_to_curve448).toRationalMap)) = R.ok M := by
    rw [Iso4.map448_eq]; exact hM
  rw [hzeq, R.ok_bind] at hM
  have hzc : Canon curve448_p ⟨curve448_p - 1, ⟨curve448_p⟩⟩ := canon_lit (by decide +kernel) (by decide +kernel)
  have hzv : val curve448_p ⟨curve448_p - 1, ⟨curve448_p⟩⟩ = -1 := by simp [Spec.val]
  generalize (⟨curve448_p - 1, ⟨curve448_p⟩⟩ : FpElt) = z at hM hzc hzv hzeq
  rw [← hzv] at hns
  refine ⟨inferInstance, Iso4.map448.e0, inferInstance, M, edwards448_eq, hM0, fun A => ?_⟩
  obtain ⟨hr, mt, hmt, hel⟩ := new_ok hM
  simp only [Ed4isoMt448.toRationalMap, R.ok.injEq] at hmt
  subst hmt
  have hp2 : Fact (2 < curve448_p) := ⟨by decide +kernel⟩
  have hpar : ∀ y : ZMod curve448_p, y ≠ 0 → (-y).val % 2 ≠ y.val % 2 := fun y hy => by
    rw [neg_parity hy]; have := Nat.mod_two_eq_zero_or_one y.val; omega
  -- the images of `0`, `1` and `-1` are no points
  have hbad : ∀ u : ZMod curve448_p, Exc (val curve448_p z) u → ¬ EReturns curve448_p Iso4.map448.e0 (M.map (el u)) A := by
    intro u hu hret
    have hu' : el u = ⟨0, ⟨curve448_p⟩⟩ ∨ el u = ⟨1, ⟨curve448_p⟩⟩ ∨ el u = ⟨curve448_p - 1, ⟨curve448_p⟩⟩ := by
      have key : ∀ n : ℤ, 0 ≤ n → n < curve448_p → u = (n : ZMod curve448_p) → el u = ⟨n, ⟨curve448_p⟩⟩ := by
        intro n h0 h1 h
        obtain ⟨w, hw⟩ := canon_iff.1 (canon_lit (p := curve448_p) h0 h1)
        have : val curve448_p ⟨n, ⟨curve448_p⟩⟩ = n := rfl
        rw [hw, val_el] at this
        rw [hw, h, this]
      rcases hu with h | h
      · exact Or.inl (key 0 le_rfl (by decide +kernel) (by simpa using h))
      · rw [hzv] at h
        have : (u - 1) * (u + 1) = 0 := by linear_combination -h
        rcases mul_eq_zero.1 this with h | h
        · exact Or.inr (Or.inl (key 1 (by norm_num) (by decide +kernel) (by rw [Int.cast_one]; linear_combination h)))
        · refine Or.inr (Or.inr (key _ (by decide +kernel) (by decide +kernel) ?_))
          simp only [Int.cast_sub, Int.cast_natCast, CharP.cast_eq_zero, Int.cast_one]
          linear_combination h
    obtain ⟨P, hP, -, -, -, -, hno⟩ := C44_refuted_448 (el u) hu'
    have e1 : (do
      let e ← EDWARDS448
      let r ← edwards448_to_curve448
      (← Ell2.new e (← e.getField.fromPrim (-1)) (some r.toRationalMap)).map (el u)) = M.map (el u) := by
      rw [edwards448_eq, R.ok_bind, Iso4.map448_eq, R.ok_bind]
      change ((Iso4.map448.e0.getField.fromPrim (-1)).bind fun z => (Ell2.new Iso4.map448.e0 z (some Iso4.map448.toRationalMap)).bind
        fun m => m.map (el u)) = _
      rw [hzeq]
      change (Ell2.new Iso4.map448.e0 z (some Iso4.map448.toRationalMap)).bind (fun m => m.map (el u)) = M.map (el u)
      rw [hM]
      rfl
    rw [e1] at hP
    obtain ⟨Q, hQ, hQd⟩ := hret
    rw [hP, R.ok.injEq] at hQ
    subst hQ
    exact hno ⟨A, hQd⟩
  choose X Y hn hret hell using fun u : ZMod curve448_p =>
    Map.ell2_pt Iso4.map448_ok.e1 Iso4.map448_ok.b_one hs z (el u) hzc hns (canon_iff.2 ⟨u, rfl⟩) M.mapToCurve hel
  simp only [val_el] at hell
  let f : ZMod curve448_p → (mGroup curve448_p Iso4.map448.e1).Point := fun u => .some _ (Y u) (hn u)
  have hf : ∀ u v, f u = f v ↔ (u = v ∨ u = -v) ∨ (Exc (val curve448_p z) u ∧ Exc (val curve448_p z) v) := by
    intro u v
    rw [← fibre (Map.a_ne M.mapToCurve Iso4.map448_ok.e1 hel) hns (hell u) (hell v) hpar]
    exact (WeierstrassCurve.Affine.Point.some.injEq _ _ _ _ _ _).to_iff
  let T : Finset (ZMod curve448_p) := Finset.univ.filter fun u => EReturns curve448_p Iso4.map448.e0 (M.map (el u)) A
  have hT : ∀ u ∈ T, ¬ Exc (val curve448_p z) u ∧ Iso4.dual448 (f u) = A := by
    intro u hu
    have hA := (Finset.mem_filter.1 hu).2
    have hx : ¬ Exc (val curve448_p z) u := fun h => hbad u h hA
    refine ⟨hx, ?_⟩
    obtain ⟨Q, hQ, hQd⟩ := hret u
    have h0 : ∀ hn', f u ≠ .some 0 0 hn' := by
      intro hn' h
      rw [WeierstrassCurve.Affine.Point.some.injEq] at h
      refine ell2X_ne (Map.a_ne M.mapToCurve Iso4.map448_ok.e1 hel) hns hx ?_
      rw [← (hell u).hx, h.1]
    obtain ⟨P, hP, hPd⟩ := Iso4.pull_returns hQd h0
    obtain ⟨P', hP', hPd'⟩ := hA
    have : M.map (el u) = Iso4.map448.pull Q := by
      rw [Ell2.map, hr, hQ, R.ok_bind]
      rfl
    rw [this, hP, R.ok.injEq] at hP'
    subst hP'
    exact eDenotes_unique hPd hPd'
  have hle : (edwPreimages curve448_p Iso4.map448.e0 M A).encard ≤ (T.card : ℕ∞) := by
    rw [← Set.encard_coe_eq_coe_finsetCard]
    refine Set.encard_le_encard_of_injOn (f := val curve448_p) ?_ ?_
    · rintro u ⟨hu, hr⟩
      obtain ⟨u', rfl⟩ := canon_iff.1 hu
      rw [val_el, Finset.mem_coe, Finset.mem_filter]
      exact ⟨Finset.mem_univ _, hr⟩
    · rintro u ⟨hu, -⟩ v ⟨hv, -⟩ huv
      obtain ⟨u', rfl⟩ := canon_iff.1 hu
      obtain ⟨v', rfl⟩ := canon_iff.1 hv
      simp only [val_el] at huv
      rw [huv]
  refine hle.trans ?_
  have h1 : T.card ≤ 2 * (T.image f).card := by
    refine Finset.card_le_mul_card_image T 2 ?_
    intro B hB
    obtain ⟨u0, hu0, rfl⟩ := Finset.mem_image.1 hB
    refine (Finset.card_le_card (t := {u0, -u0}) ?_).trans Finset.card_le_two
    intro v hv
    obtain ⟨hvT, hvg⟩ := Finset.mem_filter.1 hv
    rcases (hf _ _).1 hvg with (h | h) | h
    · simp [h]
    · simp [h]
    · exact absurd h.1 (hT v hvT).1
  have h2 : (T.image f).card ≤ 4 := by
    have : ((T.image f).card : ℕ∞) ≤ (4 : ℕ) := by
      rw [← Set.encard_coe_eq_coe_finsetCard]
      refine (Set.encard_le_encard ?_).trans (preimage_le Iso4.dual448 4 Iso4.dual_ker (by norm_num) A)
      intro B hB
      obtain ⟨u, hu, rfl⟩ := Finset.mem_image.1 (Finset.mem_coe.1 hB)
      exact (hT u hu).2
    exact_mod_cast this
  have : T.card ≤ 8 := by omega
  exact_mod_cast this

/-- The hypotheses of the general statement are met by the map of `EDWARDS25519`, and both answers occur: `2` and `-2` have the same
image, `2` and `3` do not. On `EDWARDS448` there are points with several preimages: `2` and `-2`. -/
example : Ed2MtOK curve25519_p Bir.map25519 ∧
    (do let M ← Ell2.new Bir.map25519.e0 ⟨2, ⟨curve25519_p⟩⟩ (some Bir.map25519.toRationalMap)
        return ((← (← M.map ⟨2, ⟨curve25519_p⟩⟩).eq (← M.map ⟨curve25519_p - 2, ⟨curve25519_p⟩⟩)),
          (← (← M.map ⟨2, ⟨curve25519_p⟩⟩).eq (← M.map ⟨3, ⟨curve25519_p⟩⟩)))) = R.ok (true, false) ∧
    (do let M ← Ell2.new Iso4.map448.e0 ⟨curve448_p - 1, ⟨curve448_p⟩⟩ (some Iso4.map448.toRationalMap)
        return ((← (← M.map ⟨2, ⟨curve448_p⟩⟩).eq (← M.map ⟨curve448_p - 2, ⟨curve448_p⟩⟩)),
          (← (← M.map ⟨2, ⟨curve448_p⟩⟩).eq (← M.map ⟨3, ⟨curve448_p⟩⟩)))) = R.ok (true, false) :=
  ⟨Bir.map25519_ok, by decide +kernel, by decide +kernel⟩

end Redox.Props.EdMap
