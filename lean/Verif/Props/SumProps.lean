import Verif.Props.EdwEll2Fibres
import Verif.Props.NamedMaps

/-!
# C80: sums of two Elligator 2 images on the 448-bit curves

Elligator 2 reaches slightly more than half of the points of `CURVE448`, so every point is the sum of two images. On `EDWARDS448` the
images are already in the subgroup of the generator, because they are images of the dual of the 4-isogeny.
-/

set_option maxRecDepth 100000

namespace Redox.Props.EdMap

open Spec Edw Edwards Ell2Math Redox.Inst

/-- A subset with more than half of the elements of a group meets all its reflections. -/
theorem sum_cover {G : Type*} [AddCommGroup G] [Finite G] (S : Set G) (h : Nat.card G < 2 * S.ncard) (g : G) :
    ∃ a ∈ S, ∃ b ∈ S, a + b = g := by
  have h1 : ((fun b => g - b) '' S).ncard = S.ncard := Set.ncard_image_of_injective _ sub_right_injective
  have h2 := Set.ncard_union_add_ncard_inter S ((fun b => g - b) '' S)
  have h3 : (S ∪ (fun b => g - b) '' S).ncard ≤ Nat.card G := Set.ncard_le_card _
  have h4 : (S ∩ (fun b => g - b) '' S).Nonempty := by
    rw [← Set.ncard_pos]; omega
  obtain ⟨a, ha, b, hb, rfl⟩ := h4
  exact ⟨_, ha, b, hb, sub_add_cancel g b⟩

/-- The inputs that are not `0`, `1` or `-1`. -/
def Ordinary (p : ℕ) (u : FpElt) : Prop := Canon p u ∧ val p u ≠ 0 ∧ val p u ≠ 1 ∧ val p u ≠ -1

theorem mDenotes_unique {p : ℕ} [Fact p.Prime] {e : Montgomery.Curve} {P : Montgomery.Point} {A B : (mGroup p e).Point}
    (hA : MDenotes p e P A) (hB : MDenotes p e P B) : A = B := by
  classical
  have h1 := Mo.eq_of_denotes P P A A hA hA
  have h2 := Mo.eq_of_denotes P P A B hA hB
  rw [h1] at h2
  simpa using h2

theorem cover448 : ∃ m : Montgomery.Ell2, (do Montgomery.Ell2.new curve448 (← curve448.f.fromPrim (-1))) = R.ok m ∧
    ∀ B : (mGroup curve448_p curve448).Point, ∃ u v A A', Ordinary curve448_p u ∧ Ordinary curve448_p v ∧
      MReturns curve448_p curve448 (m.map u) A ∧ MReturns curve448_p curve448 (m.map v) A' ∧ A + A' = B := by
  have hC := C70_curve448
  rw [Inst.c448_p_eq] at hC
  obtain ⟨_, e, m, he, hm, heq, hcard⟩ := hC
  rw [curve448_eq, R.ok.injEq] at he
  subst he
  refine ⟨m, hm, ?_⟩
  have hfin : Finite (mGroup curve448_p curve448).Point := Inst.m_finite curve448_valid.curve
  let S : Set (mGroup curve448_p curve448).Point := {A | ∃ u, Ordinary curve448_p u ∧ MReturns curve448_p curve448 (m.map u) A}
  have hS : 2 ^ 447 - 2 ^ 223 - 1 ≤ S.ncard + 1 := by
    have h0c : Canon curve448_p (el (0 : ZMod curve448_p)) := canon_iff.2 ⟨0, rfl⟩
    have h0 : ∃ A0, MReturns curve448_p curve448 (m.map (el (0 : ZMod curve448_p))) A0 := by
      obtain ⟨z, hz, hzc, hzv⟩ := Inst.fromPrim_val curve448_valid.curve.field (-1)
      have hm' := hm
      rw [hz, R.ok_bind] at hm'
      have hns : ¬ IsSquare (-1 : ZMod curve448_p) := by
        have := NoRoot.not_isSquare_of_pow (p := curve448_p) (curve448_p - 1) (by decide +kernel) (by decide +kernel)
        have e : ((curve448_p - 1 : ℕ) : ZMod curve448_p) = -1 := by
          rw [Nat.cast_sub (by decide +kernel)]; simp
        rwa [e] at this
      have hzv' : val curve448_p z = -1 := by rw [hzv]; norm_num
      rw [← hzv'] at hns
      obtain ⟨x, y, hn, h, -⟩ := Map.ell2_pt curve448_valid.curve curve448_valid.b_one (by decide +kernel) z (el (0 : ZMod curve448_p)) hzc hns h0c m hm'
      exact ⟨_, h⟩
    obtain ⟨A0, P0, hP0, hd0⟩ := h0
    rw [← hcard]
    refine (Set.ncard_le_ncard (t := insert A0 S) ?_).trans (Set.ncard_insert_le _ _)
    rintro A ⟨u, hu, P, hP, hd⟩
    by_cases ho : Ordinary curve448_p u
    · exact Or.inr ⟨u, ho, P, hP, hd⟩
    · left
      have h1 := heq u (el (0 : ZMod curve448_p)) hu h0c
      have hex : val curve448_p u = 0 ∨ val curve448_p u = 1 ∨ val curve448_p u = -1 := by
        by_contra hcon
        push Not at hcon
        exact ho ⟨hu, hcon⟩
      classical
      simp only [hP, hP0, R.ok_bind, Mo.eq_of_denotes P P0 A A0 hd hd0, R.ok.injEq, decide_eq_decide, val_el] at h1
      exact h1.2 (Or.inr (Or.inr ⟨hex, by simp⟩))
  intro B
  obtain ⟨A, ⟨u, hu, hA⟩, A', ⟨v, hv, hA'⟩, hs⟩ := sum_cover S (by
    rw [Inst.card_curve448]
    have : curve448.r * 4 + 2 < 2 * (2 ^ 447 - 2 ^ 223 - 1) := by decide +kernel
    omega) B
  exact ⟨u, v, A, A', hu, hv, hA, hA', hs⟩

/-- C80 on `CURVE448` with `Z = -1`: every point is the sum of the images of two field elements other than `0`, `1` and `-1`. -/
theorem _root_.Redox.Props.C80_curve448 : ∃ (_ : Fact (2 ^ 448 - 2 ^ 224 - 1).Prime) (e : Montgomery.Curve) (m : Montgomery.Ell2),
    CURVE448 = R.ok e ∧ (do Montgomery.Ell2.new e (← e.f.fromPrim (-1))) = R.ok m ∧
    ∀ P B, MDenotes (2 ^ 448 - 2 ^ 224 - 1) e P B →
      ∃ u v, Ordinary (2 ^ 448 - 2 ^ 224 - 1) u ∧ Ordinary (2 ^ 448 - 2 ^ 224 - 1) v ∧
        (do (← (← m.map u).add (← m.map v)).eq P) = R.ok true := by
  rw [Inst.c448_p_eq]
  obtain ⟨m, hm, h⟩ := cover448
  refine ⟨inferInstance, curve448, m, curve448_eq, hm, fun P B hP => ?_⟩
  have hv := curve448_valid
  obtain ⟨u, v, A, A', hu, hv', ⟨Q, hQ, hQd⟩, ⟨Q', hQ', hQd'⟩, hs⟩ := h B
  obtain ⟨S, hS, hSd⟩ := (C32_group_law_partial _ _ hv.curve hv.b_one hv.complete Q Q' A A' hQd hQd').1
  refine ⟨u, v, hu, hv', ?_⟩
  classical
  simp only [hQ, hQ', R.ok_bind, hS, Mo.eq_of_denotes S P _ B hSd hP, hs, decide_eq_true]

/-- C80, hashing to `CURVE448`: every multiple of the generator is reached by mapping two field elements, adding and clearing the
cofactor. -/
theorem _root_.Redox.Props.C80_hash_curve448 : ∃ (_ : Fact (2 ^ 448 - 2 ^ 224 - 1).Prime) (e : Montgomery.Curve) (m : Montgomery.Ell2),
    CURVE448 = R.ok e ∧ (do Montgomery.Ell2.new e (← e.f.fromPrim (-1))) = R.ok m ∧
    ∃ G g, e.getGenerator = R.ok G ∧ MDenotes (2 ^ 448 - 2 ^ 224 - 1) e G g ∧ ∀ (prof : Profile) (n : ℤ),
      ∃ u v, Ordinary (2 ^ 448 - 2 ^ 224 - 1) u ∧ Ordinary (2 ^ 448 - 2 ^ 224 - 1) v ∧
        MReturns (2 ^ 448 - 2 ^ 224 - 1) e (Inst.mHash prof e m.map u v) (n • g) := by
  rw [Inst.c448_p_eq]
  obtain ⟨m, hm, h⟩ := cover448
  have hv := curve448_valid
  obtain ⟨G, g, hG, hg, ho⟩ := hv.generator
  refine ⟨inferInstance, curve448, m, curve448_eq, hm, G, g, hG, hg, fun prof n => ?_⟩
  have hcop : IsCoprime (4 : ℤ) curve448.r := by
    rw [Int.isCoprime_iff_gcd_eq_one]; decide +kernel
  obtain ⟨i, j, hij⟩ := hcop
  obtain ⟨u, v, A, A', hu, hv', ⟨Q, hQ, hQd⟩, ⟨Q', hQ', hQd'⟩, hs⟩ := h ((n * i) • g)
  obtain ⟨S, hS, hSd⟩ := (C32_group_law_partial _ _ hv.curve hv.b_one hv.complete Q Q' A A' hQd hQd').1
  refine ⟨u, v, hu, hv', ?_⟩
  have hr1 : 1 ≤ curve448.r := by decide +kernel
  have h4 : ((curve448.h : ℤ)) = 4 := by decide +kernel
  unfold Inst.mHash
  simp only [hQ, hQ', R.ok_bind, hS, Montgomery.Curve.newScalar, scalar_new_eq curve448.r hr1, Montgomery.Curve.getCofactor]
  have hlt : (curve448.h : ℤ) < curve448.r := by decide +kernel
  rw [Int.emod_eq_of_lt (by omega) hlt]
  have hmul := C33_mul_partial _ _ hv.curve hv.b_one hv.complete hv.order_bits prof S _ hSd ⟨curve448.h, curve448.r⟩
      ⟨rfl, by simp, by simpa using hlt⟩ (Or.inl (by simp only [ne_eq]; omega))
  rw [hs] at hmul
  have hfin : (curve448.h : ℤ) • (n * i) • g = n • g := by
    have ho' : addOrderOf g = curve448.r := ho
    rw [smul_smul, Inst.smul_eq_iff ho', h4]
    refine ⟨-n * j, ?_⟩
    linear_combination n * hij
  rw [← hfin]
  exact hmul

/-- The images of the dual of the 4-isogeny are the multiples of the generator. -/
theorem range_dual {g : eGroup curve448_p Iso4.map448.e0} (ho : addOrderOf g = Iso4.map448.e0.r) :
    Iso4.dual448.range = AddSubgroup.zmultiples g := by
  have hodd := edwards448_valid.curve.params.odd
  have : Finite (eGroup curve448_p Iso4.map448.e0) := Cof.finiteE (a := val curve448_p Iso4.map448.e0.a) (d := val curve448_p Iso4.map448.e0.d) hodd
  have hk := AddSubgroup.card_mul_index Iso4.dual448.ker
  rw [Iso4.dual_ker, AddSubgroup.index_ker] at hk
  have hc : Nat.card (mGroup curve448_p Iso4.map448.e1).Point = curve448.r * 4 := Inst.card_curve448
  have hr : Nat.card Iso4.dual448.range = Iso4.map448.e0.r := by
    have : curve448.r = Iso4.map448.e0.r := by decide +kernel
    omega
  have hle : AddSubgroup.zmultiples g ≤ Iso4.dual448.range := by
    rw [AddSubgroup.zmultiples_le]
    have hcop : IsCoprime (4 : ℤ) Iso4.map448.e0.r := by
      rw [Int.isCoprime_iff_gcd_eq_one]; decide +kernel
    obtain ⟨i, j, hij⟩ := hcop
    refine ⟨i • Iso4.phi448 g, ?_⟩
    rw [map_zsmul, Iso4.dual_phi, ← natCast_zsmul, smul_smul]
    have : (i * ((4 : ℕ) : ℤ)) • g = (1 : ℤ) • g := by
      rw [Inst.smul_eq_iff ho]
      refine ⟨-j, ?_⟩
      push_cast
      linear_combination hij
    rw [this, one_smul]
  refine (AddSubgroup.eq_of_le_of_card_ge hle ?_).symm
  rw [hr, Nat.card_zmultiples, ho]

/-- C80 on `EDWARDS448` with `Z = -1`: for every field element other than `0`, `1` and `-1` the image is already a multiple of the
generator, and every multiple of the generator is the sum of two such images. -/
theorem _root_.Redox.Props.C80_edwards448 : ∃ (_ : Fact (2 ^ 448 - 2 ^ 224 - 1).Prime) (e : Edwards.Curve)
    (_ : ECurve (2 ^ 448 - 2 ^ 224 - 1) e) (M : Ell2), EDWARDS448 = R.ok e ∧
    (do Ell2.new e (← e.getField.fromPrim (-1)) (some (← edwards448_to_curve448).toRationalMap)) = R.ok M ∧
    ∃ G g, e.getGenerator = R.ok G ∧ EDenotes (2 ^ 448 - 2 ^ 224 - 1) e G g ∧
      (∀ u, Ordinary (2 ^ 448 - 2 ^ 224 - 1) u → ∃ n : ℤ, EReturns (2 ^ 448 - 2 ^ 224 - 1) e (M.map u) (n • g)) ∧
      ∀ n : ℤ, ∃ u v, Ordinary (2 ^ 448 - 2 ^ 224 - 1) u ∧ Ordinary (2 ^ 448 - 2 ^ 224 - 1) v ∧
        EReturns (2 ^ 448 - 2 ^ 224 - 1) e (do (← M.map u).add (← M.map v)) (n • g) := by
  rw [Inst.c448_p_eq]
  have hs : curve448_p % 4 = 3 ∨ curve448_p % 8 = 5 := by decide +kernel
  have hns : ¬ IsSquare (-1 : ZMod curve448_p) := by
    have := NoRoot.not_isSquare_of_pow (p := curve448_p) (curve448_p - 1) (by decide +kernel) (by decide +kernel)
    have e : ((curve448_p - 1 : ℕ) : ZMod curve448_p) = -1 := by
      rw [Nat.cast_sub (by decide +kernel)]; simp
    rwa [e] at this
  have hnew : ((do Ell2.new Iso4.map448.e0 (← Iso4.map448.e0.getField.fromPrim (-1)) (some Iso4.map448.toRationalMap)).bind
      fun _ => R.ok true) = R.ok true := by
    decide +kernel
  obtain ⟨M, hM, -⟩ := R.bind_eq_ok.1 hnew
  have hM0 : (do
      let z ← Iso4.map448.e0.getField.fromPrim (-1)
      Ell2.new Iso4.map448.e0 z (some (← edwards448_to_curve448).toRationalMap)) = R.ok M := by
    rw [Iso4.map448_eq]; exact hM
  have hzeq : Iso4.map448.e0.getField.fromPrim (-1) = R.ok ⟨curve448_p - 1, ⟨curve448_p⟩⟩ := by decide +kernel
  have hzeq' : curve448.f.fromPrim (-1) = R.ok ⟨curve448_p - 1, ⟨curve448_p⟩⟩ := by decide +kernel
  rw [hzeq, R.ok_bind] at hM
  have hzc : Canon curve448_p ⟨curve448_p - 1, ⟨curve448_p⟩⟩ := canon_lit (by decide +kernel) (by decide +kernel)
  have hzv : val curve448_p ⟨curve448_p - 1, ⟨curve448_p⟩⟩ = -1 := by simp [Spec.val]
  generalize (⟨curve448_p - 1, ⟨curve448_p⟩⟩ : FpElt) = z at hM hzc hzv hzeq hzeq'
  rw [← hzv] at hns
  obtain ⟨hr, mt, hmt, hel⟩ := new_ok hM
  simp only [Ed4isoMt448.toRationalMap, R.ok.injEq] at hmt
  subst hmt
  have hp2 : Fact (2 < curve448_p) := ⟨by decide +kernel⟩
  obtain ⟨m, hm, hcov⟩ := cover448
  rw [hzeq', R.ok_bind] at hm
  have hmm : M.mapToCurve = m := by
    have : R.ok M.mapToCurve = R.ok m := hel.symm.trans hm
    simpa using this
  -- the image on the Edwards curve is the image of the dual
  have hpull : ∀ u, Ordinary curve448_p u → ∀ B, MReturns curve448_p Iso4.map448.e1 (m.map u) B →
      EReturns curve448_p Iso4.map448.e0 (M.map u) (Iso4.dual448 B) := by
    rintro u ⟨huc, hu0, hu1, hu2⟩ B ⟨Q, hQ, hQd⟩
    have hx : ¬ Exc (val curve448_p z) (val curve448_p u) := by
      rintro (h | h)
      · exact hu0 h
      · rw [hzv] at h
        have : (val curve448_p u - 1) * (val curve448_p u + 1) = 0 := by linear_combination -h
        rcases mul_eq_zero.1 this with h | h
        · exact hu1 (by linear_combination h)
        · exact hu2 (by linear_combination h)
    obtain ⟨x, y, hn, ⟨Q', hQ', hQd'⟩, hell⟩ := Map.ell2_pt Iso4.map448_ok.e1 Iso4.map448_ok.b_one hs z u hzc hns huc M.mapToCurve hel
    rw [hmm, hQ, R.ok.injEq] at hQ'
    subst hQ'
    have hB := mDenotes_unique hQd hQd'
    obtain ⟨P, hP, hPd⟩ := Iso4.pull_returns hQd (fun hn' h => by
      rw [hB, WeierstrassCurve.Affine.Point.some.injEq] at h
      refine ell2X_ne (Map.a_ne M.mapToCurve Iso4.map448_ok.e1 hel) hns hx ?_
      rw [← hell.hx, h.1])
    refine ⟨P, ?_, hPd⟩
    rw [Ell2.map, hr, hmm, hQ, R.ok_bind]
    exact hP
  have hv : EValid curve448_p Iso4.map448.e0 := edwards448_valid
  obtain ⟨G, g, hG, hg, ho⟩ := hv.generator
  have hrange := range_dual ho
  refine ⟨inferInstance, Iso4.map448.e0, inferInstance, M, edwards448_eq, hM0, G, g, hG, hg, ?_, ?_⟩
  · intro u hu
    obtain ⟨x, y, hn, hret, -⟩ := Map.ell2_pt Iso4.map448_ok.e1 Iso4.map448_ok.b_one hs z u hzc hns hu.1 M.mapToCurve hel
    rw [hmm] at hret
    have h1 := hpull u hu _ hret
    have h2 : Iso4.dual448 (WeierstrassCurve.Affine.Point.some x y hn) ∈ AddSubgroup.zmultiples g := by
      rw [← hrange]; exact ⟨_, rfl⟩
    obtain ⟨n, hn⟩ := h2
    have hn' : n • g = _ := hn
    exact ⟨n, by rw [hn']; exact h1⟩
  · intro n
    have h2 : n • g ∈ Iso4.dual448.range := by rw [hrange]; exact ⟨n, rfl⟩
    obtain ⟨B, hB⟩ := h2
    obtain ⟨u, v, (A : (mGroup curve448_p Iso4.map448.e1).Point), (A' : (mGroup curve448_p Iso4.map448.e1).Point), hu, hv', hA, hA',
      (hs : A + A' = B)⟩ := hcov B
    obtain ⟨P, hP, hPd⟩ := hpull u hu A hA
    obtain ⟨P', hP', hPd'⟩ := hpull v hv' A' hA'
    refine ⟨u, v, hu, hv', ?_⟩
    obtain ⟨S, hS, hSd⟩ := (C36_group_law _ _ P P' _ _ hPd hPd').1
    rw [← map_add, hs, hB] at hSd
    exact ⟨S, by simp only [hP, hP', R.ok_bind, hS], hSd⟩

/-- Ordinary inputs exist, and the images of two of them and their sum are different points. -/
example : Ordinary curve448_p ⟨2, ⟨curve448_p⟩⟩ ∧ Ordinary curve448_p ⟨3, ⟨curve448_p⟩⟩ ∧
    (do let m ← Montgomery.Ell2.new curve448 (← curve448.f.fromPrim (-1))
        let P ← m.map ⟨2, ⟨curve448_p⟩⟩
        let Q ← m.map ⟨3, ⟨curve448_p⟩⟩
        let S ← P.add Q
        return ((← S.eq P), (← S.eq Q), S.isZero)) = R.ok (false, false, false) := by
  have key : ∀ n : ℕ, n < curve448_p → n ≠ 0 → n ≠ 1 → n ≠ curve448_p - 1 → Ordinary curve448_p ⟨n, ⟨curve448_p⟩⟩ := by
    intro n hn h0 h1 h2
    have hp : 1 < curve448_p := by decide +kernel
    have hv : val curve448_p ⟨n, ⟨curve448_p⟩⟩ = ((n : ℕ) : ZMod curve448_p) := by simp [Spec.val]
    have inj : ∀ k : ℕ, k < curve448_p → n ≠ k → ((n : ℕ) : ZMod curve448_p) ≠ k := by
      intro k hk hne h
      rw [ZMod.natCast_eq_natCast_iff', Nat.mod_eq_of_lt hn, Nat.mod_eq_of_lt hk] at h
      exact hne h
    refine ⟨canon_lit (by simp) (by exact_mod_cast hn), ?_, ?_, ?_⟩ <;> rw [hv]
    · simpa using inj 0 (by omega) h0
    · simpa using inj 1 hp h1
    · have := inj (curve448_p - 1) (by omega) h2
      rw [Nat.cast_sub hp.le] at this
      simpa using this
  exact ⟨key 2 (by decide +kernel) (by norm_num) (by norm_num) (by decide +kernel),
    key 3 (by decide +kernel) (by norm_num) (by norm_num) (by decide +kernel), by decide +kernel⟩

end Redox.Props.EdMap
