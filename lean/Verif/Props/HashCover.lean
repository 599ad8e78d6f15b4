import Verif.Props.SumProps
import Mathlib.Combinatorics.Additive.CauchyDavenport

/-!
# C102: points reached by hashing to the 25519 curves

Elligator 2 reaches slightly fewer than half of the points of `CURVE25519` and `EDWARDS25519`. After clearing the cofactor the images are still
at least `2 ^ 251 - 1` of the multiples of the generator, and the theorem of Cauchy and Davenport bounds the sums of two and of three of them.
-/

set_option maxRecDepth 100000

namespace Redox.Props.Cover
open Pointwise

section
variable {G : Type*} [AddCommGroup G] [Finite G]

/-- Multiplying by the cofactor identifies at most as many points as the cofactor says. -/
theorem clear_card (h r : ℕ) (hcop : IsCoprime (h : ℤ) r) (hcard : Nat.card G = r * h) (hr0 : 0 < r) (g : G) (hg : addOrderOf g = r)
    (S : Set G) : S.ncard ≤ h * ((fun A => h • A) '' S).ncard := by
  classical
  have hle : AddSubgroup.zmultiples g ≤ (nsmulAddMonoidHom (α := G) h).range := by
    rw [AddSubgroup.zmultiples_le]
    obtain ⟨i, j, hij⟩ := hcop
    refine ⟨i • g, ?_⟩
    have : (h : ℤ) • i • g = (1 : ℤ) • g := by
      rw [smul_smul, Inst.smul_eq_iff hg]
      exact ⟨-j, by linear_combination hij⟩
    simpa using this
  have hcr : r ≤ Nat.card (nsmulAddMonoidHom (α := G) h).range := by
    have := AddSubgroup.card_le_of_le hle
    rwa [Nat.card_zmultiples, hg] at this
  have hk := AddSubgroup.card_mul_index (nsmulAddMonoidHom (α := G) h).ker
  rw [AddSubgroup.index_ker, hcard] at hk
  set K := Nat.card (nsmulAddMonoidHom (α := G) h).ker with hK
  have hK0 : K ≠ 0 := Nat.card_pos.ne'
  have hKh : K ≤ h := by
    have : K * r ≤ r * h := by rw [← hk]; exact Nat.mul_le_mul_left _ hcr
    rw [mul_comm] at this
    exact Nat.le_of_mul_le_mul_left this hr0
  have hS : S.Finite := S.toFinite
  have hb := Finset.card_le_mul_card_image (f := fun A : G => h • A) hS.toFinset K (fun B _ => by
    have := EdMap.preimage_le (nsmulAddMonoidHom (α := G) h) K hK.symm hK0 B
    have h2 : (({a ∈ hS.toFinset | h • a = B} : Finset G) : Set G).encard ≤ K :=
      (Set.encard_le_encard fun a ha => by simpa using (Finset.mem_filter.1 ha).2).trans this
    rw [Set.encard_coe_eq_coe_finsetCard] at h2
    exact_mod_cast h2)
  rw [← Set.ncard_coe_finset, ← Set.ncard_coe_finset, Finset.coe_image, hS.coe_toFinset] at hb
  exact hb.trans (Nat.mul_le_mul_right _ hKh)

omit [Finite G] in
/-- Sums of two and of three elements of a set of multiples of an element of prime order. -/
theorem sums_card {r : ℕ} (hr : r.Prime) (g : G) (hg : addOrderOf g = r) (T : Set G) (hT : ∀ A ∈ T, ∃ n : ℤ, A = n • g)
    (h0 : T.Nonempty) : min r (2 * T.ncard - 1) ≤ (T + T).ncard ∧ min r (3 * T.ncard - 2) ≤ (T + T + T).ncard := by
  classical
  have : Fact r.Prime := ⟨hr⟩
  have : NeZero r := ⟨hr.ne_zero⟩
  let f : ZMod r →+ G := ZMod.lift r ⟨zmultiplesHom G g, by
    have : (r : ℤ) • g = 0 := by rw [natCast_zsmul, ← hg, addOrderOf_nsmul_eq_zero]
    simpa using this⟩
  have fi : ∀ n : ℤ, f n = n • g := fun n => by simp [f]
  have finj : Function.Injective f := by
    rw [injective_iff_map_eq_zero]
    intro a ha
    obtain ⟨n, rfl⟩ := ZMod.intCast_surjective a
    rw [fi] at ha
    have := (Inst.smul_eq_iff hg (k1 := n) (k2 := 0)).1 (by rw [ha, zero_smul])
    rw [sub_zero] at this
    exact (ZMod.intCast_zmod_eq_zero_iff_dvd _ _).2 this
  let U : Finset (ZMod r) := Finset.univ.filter fun a => f a ∈ T
  have hU : f '' (U : Set (ZMod r)) = T := by
    ext A
    constructor
    · rintro ⟨a, ha, rfl⟩
      simpa [U] using ha
    · intro hA
      obtain ⟨n, rfl⟩ := hT A hA
      exact ⟨n, by simp [U, fi, hA], fi n⟩
  have hc : ∀ V : Finset (ZMod r), (f '' (V : Set (ZMod r))).ncard = V.card := fun V => by
    rw [Set.ncard_image_of_injective _ finj, Set.ncard_coe_finset]
  have hU0 : U.Nonempty := by
    obtain ⟨A, hA⟩ := h0
    rw [← hU] at hA
    obtain ⟨a, ha, -⟩ := hA
    exact ⟨a, ha⟩
  have e1 : T.ncard = U.card := by rw [← hU, hc]
  have e2 : (T + T).ncard = (U + U).card := by rw [← hc, Finset.coe_add, Set.image_add, hU]
  have e3 : (T + T + T).ncard = (U + U + U).card := by rw [← hc, Finset.coe_add, Finset.coe_add, Set.image_add, Set.image_add, hU]
  have c1 := ZMod.cauchy_davenport hr hU0 hU0
  have c2 := ZMod.cauchy_davenport hr (hU0.add hU0) hU0
  rw [e1, e2, e3]
  have := hU0.card_pos
  refine ⟨by omega, ?_⟩
  have h4 : U.card ≤ r := by simpa [ZMod.card] using Finset.card_le_univ U
  omega

/-- How many multiples of `g` are missed by clearing the cofactor of sums of two elements of `S`; sums of three miss none. -/
theorem cover (h r : ℕ) (hr : r.Prime) (hcop : IsCoprime (h : ℤ) r) (hcard : Nat.card G = r * h) (g : G) (hg : addOrderOf g = r)
    (S : Set G) (h0 : S.Nonempty) (hS : ∀ A ∈ S, ∃ n : ℤ, h • A = n • g) (t : ℕ) (ht : h * (t - 1) < S.ncard) :
    {A | (∃ n : ℤ, A = n • g) ∧ ∀ B ∈ S, ∀ C ∈ S, h • (B + C) ≠ A}.ncard ≤ r - (2 * t - 1) ∧
    (r ≤ 3 * t - 2 → ∀ n : ℤ, ∃ B ∈ S, ∃ C ∈ S, ∃ D ∈ S, h • (B + C + D) = n • g) := by
  classical
  set T := (fun A => h • A) '' S with hTdef
  have hT : ∀ A ∈ T, ∃ n : ℤ, A = n • g := by
    rintro _ ⟨A, hA, rfl⟩; exact hS A hA
  have hle := clear_card h r hcop hcard hr.pos g hg S
  have htT : t ≤ T.ncard := by
    have : h * (t - 1) < h * T.ncard := ht.trans_le hle
    have := lt_of_mul_lt_mul_left this (Nat.zero_le h)
    omega
  obtain ⟨h2, h3⟩ := sums_card hr g hg T hT (h0.image _)
  set Z : Set G := {A | ∃ n : ℤ, A = n • g} with hZ
  have hZc : Z.ncard = r := by
    have : Z = (AddSubgroup.zmultiples g : Set G) := by
      ext A; simp [hZ, AddSubgroup.mem_zmultiples_iff, eq_comm]
    rw [this, ← Nat.card_coe_set_eq]
    exact (Nat.card_zmultiples g).trans hg
  have hsub : T + T ⊆ Z := by
    rintro _ ⟨A, hA, B, hB, rfl⟩
    obtain ⟨a, rfl⟩ := hT A hA
    obtain ⟨b, rfl⟩ := hT B hB
    exact ⟨a + b, (add_zsmul g a b).symm⟩
  have hsub3 : T + T + T ⊆ Z := by
    rintro _ ⟨A, hA, B, hB, rfl⟩
    obtain ⟨a, rfl⟩ := hsub hA
    obtain ⟨b, rfl⟩ := hT B hB
    exact ⟨a + b, (add_zsmul g a b).symm⟩
  constructor
  · have hd : {A | (∃ n : ℤ, A = n • g) ∧ ∀ B ∈ S, ∀ C ∈ S, h • (B + C) ≠ A} ⊆ Z \ (T + T) := by
      rintro A ⟨hA, hA'⟩
      refine ⟨hA, ?_⟩
      rintro ⟨_, ⟨B, hB, rfl⟩, _, ⟨C, hC, rfl⟩, h⟩
      refine hA' B hB C hC ?_
      rw [smul_add]; exact h
    refine (Set.ncard_le_ncard hd).trans ?_
    rw [Set.ncard_sdiff hsub, hZc]
    omega
  · intro hr3 n
    have : T + T + T = Z := Set.eq_of_subset_of_ncard_le hsub3 (by rw [hZc]; omega)
    have hn : n • g ∈ T + T + T := by rw [this]; exact ⟨n, rfl⟩
    obtain ⟨_, ⟨_, ⟨B, hB, rfl⟩, _, ⟨C, hC, rfl⟩, rfl⟩, _, ⟨D, hD, rfl⟩, h⟩ := hn
    refine ⟨B, hB, C, hC, D, hD, ?_⟩
    rw [smul_add, smul_add]; exact h

end

open Spec Redox.Inst

/-- C102 on `CURVE25519` with `Z = 2`: mapping two field elements, adding and clearing the cofactor misses fewer than `2 ^ 125` of the multiples of the
generator (there are more than `2 ^ 252`); with three field elements every multiple of the generator is reached. -/
theorem _root_.Redox.Props.C102_curve25519 : ∃ (_ : Fact (2 ^ 255 - 19).Prime) (e : Montgomery.Curve) (m : Montgomery.Ell2),
    CURVE25519 = R.ok e ∧ (do Montgomery.Ell2.new e (← e.f.fromPrim 2)) = R.ok m ∧
    ∃ G g, e.getGenerator = R.ok G ∧ MDenotes (2 ^ 255 - 19) e G g ∧ 2 ^ 252 < addOrderOf g ∧ ∀ prof : Profile,
      {A | (∃ n : ℤ, A = n • g) ∧ ∀ u v, Canon (2 ^ 255 - 19) u → Canon (2 ^ 255 - 19) v →
        ¬ MReturns (2 ^ 255 - 19) e (do
            let S ← (← m.map u).add (← m.map v)
            S.mul prof (← e.newScalar e.getCofactor)) A}.ncard < 2 ^ 125 ∧
      ∀ n : ℤ, ∃ u v w, Canon (2 ^ 255 - 19) u ∧ Canon (2 ^ 255 - 19) v ∧ Canon (2 ^ 255 - 19) w ∧
        MReturns (2 ^ 255 - 19) e (do
            let S ← (← (← m.map u).add (← m.map v)).add (← m.map w)
            S.mul prof (← e.newScalar e.getCofactor)) (n • g) := by
  have hC := C70_curve25519
  have hcl0 := C58_montgomery (CURVE25519, 2 ^ 255 - 19) (List.mem_cons.2 (Or.inl rfl))
  rw [Inst.c25519_p_eq] at hC hcl0 ⊢
  obtain ⟨_, e, m, he, hm, -, hcard⟩ := hC
  obtain ⟨_, e', he', G, g, hG, hg, hcl⟩ := hcl0
  change CURVE25519 = _ at he'
  rw [he, R.ok.injEq] at he'
  subst he'
  rw [curve25519_eq, R.ok.injEq] at he
  subst he
  have hv := curve25519_valid
  have hfin : Finite (mGroup curve25519_p curve25519).Point := Inst.m_finite curve25519_valid.curve
  have ho : addOrderOf g = curve25519.r := by
    obtain ⟨G', g', hG', hg', ho⟩ := hv.generator
    rw [hG, R.ok.injEq] at hG'
    subst hG'
    rw [EdMap.mDenotes_unique hg hg']; exact ho
  let S : Set (mGroup curve25519_p curve25519).Point := {A | ∃ u, Canon curve25519_p u ∧ MReturns curve25519_p curve25519 (m.map u) A}
  have hS : S.ncard = 2 ^ 254 - 9 := hcard
  have h8 : curve25519.h = 8 := by decide +kernel
  have hr1 : 1 ≤ curve25519.r := by decide +kernel
  have hlt : (curve25519.h : ℤ) < curve25519.r := by decide +kernel
  have hmul : ∀ (prof : Profile) P B, MDenotes curve25519_p curve25519 P B →
      MReturns curve25519_p curve25519 (do P.mul prof (← curve25519.newScalar curve25519.getCofactor)) (8 • B) := by
    intro prof P B hP
    simp only [R.ok_bind, Montgomery.Curve.newScalar, scalar_new_eq curve25519.r hr1, Montgomery.Curve.getCofactor]
    rw [Int.emod_eq_of_lt (by omega) hlt]
    have := C33_mul_partial _ _ hv.curve hv.b_one hv.complete hv.order_bits prof P B hP ⟨curve25519.h, curve25519.r⟩
      ⟨rfl, by simp, by simpa using hlt⟩ (Or.inl (by simp only [ne_eq]; omega))
    have h8' : ((⟨curve25519.h, curve25519.r⟩ : Scalar).k) • B = 8 • B := by
      simp only [h8]; exact natCast_zsmul B 8
    rwa [h8'] at this
  have h0 : S.Nonempty := by
    rw [← Set.ncard_pos, hS]; norm_num
  have hk := fun (t : ℕ) => cover 8 curve25519.r hv.order_prime (by
      rw [Int.isCoprime_iff_gcd_eq_one]; decide +kernel) Inst.card_curve25519 g ho S h0 (fun A hA => by
      obtain ⟨u, -, P, hP, hd⟩ := hA
      obtain ⟨n, Q, hQ, hQd⟩ := hcl .release P A hd
      obtain ⟨Q', hQ', hQd'⟩ := hmul .release P A hd
      rw [hQ, R.ok.injEq] at hQ'
      subst hQ'
      exact ⟨n, EdMap.mDenotes_unique hQd' hQd⟩) t
  obtain ⟨k1, k2⟩ := hk (2 ^ 251 - 1) (by rw [hS]; norm_num)
  refine ⟨inferInstance, curve25519, m, curve25519_eq, hm, G, g, hG, hg, by rw [ho]; decide +kernel, fun prof => ⟨?_, fun n => ?_⟩⟩
  · refine lt_of_le_of_lt (Set.ncard_le_ncard ?_) (lt_of_le_of_lt k1 (by decide +kernel))
    rintro A ⟨hA, hmiss⟩
    refine ⟨hA, ?_⟩
    rintro B ⟨u, hu, P, hP, hPd⟩ C ⟨v, hv', Q, hQ, hQd⟩ h
    refine hmiss u v hu hv' ?_
    obtain ⟨W, hW, hWd⟩ := (C32_group_law_partial _ _ hv.curve hv.b_one hv.complete P Q B C hPd hQd).1
    simp only [hP, hQ, hW, R.ok_bind]
    rw [← h]
    exact hmul prof W _ hWd
  · obtain ⟨B, ⟨u, hu, P, hP, hPd⟩, C, ⟨v, hv', Q, hQ, hQd⟩, D, ⟨w, hw, X, hX, hXd⟩, h⟩ := k2 (by decide +kernel) n
    refine ⟨u, v, w, hu, hv', hw, ?_⟩
    obtain ⟨W, hW, hWd⟩ := (C32_group_law_partial _ _ hv.curve hv.b_one hv.complete P Q B C hPd hQd).1
    obtain ⟨Y, hY, hYd⟩ := (C32_group_law_partial _ _ hv.curve hv.b_one hv.complete W X _ D hWd hXd).1
    simp only [hP, hQ, hX, hW, hY, R.ok_bind]
    rw [← h]
    exact hmul prof Y _ hYd

/-- C102 on `EDWARDS25519` with `Z = 2`: mapping two field elements, adding and clearing the cofactor misses fewer than `2 ^ 125` of the multiples of the
generator (there are more than `2 ^ 252`); with three field elements every multiple of the generator is reached. -/
theorem _root_.Redox.Props.C102_edwards25519 : ∃ (_ : Fact (2 ^ 255 - 19).Prime) (e : Edwards.Curve) (_ : ECurve (2 ^ 255 - 19) e) (m : Edwards.Ell2),
    EDWARDS25519 = R.ok e ∧ (do Edwards.Ell2.new e (← e.getField.fromPrim 2) (some (← edwards25519_to_curve25519).toRationalMap)) = R.ok m ∧
    ∃ G g, e.getGenerator = R.ok G ∧ EDenotes (2 ^ 255 - 19) e G g ∧ 2 ^ 252 < addOrderOf g ∧ ∀ prof : Profile,
      {A | (∃ n : ℤ, A = n • g) ∧ ∀ u v, Canon (2 ^ 255 - 19) u → Canon (2 ^ 255 - 19) v →
        ¬ EReturns (2 ^ 255 - 19) e (do
            let S ← (← m.map u).add (← m.map v)
            S.mul prof (← e.newScalar e.getCofactor)) A}.ncard < 2 ^ 125 ∧
      ∀ n : ℤ, ∃ u v w, Canon (2 ^ 255 - 19) u ∧ Canon (2 ^ 255 - 19) v ∧ Canon (2 ^ 255 - 19) w ∧
        EReturns (2 ^ 255 - 19) e (do
            let S ← (← (← m.map u).add (← m.map v)).add (← m.map w)
            S.mul prof (← e.newScalar e.getCofactor)) (n • g) := by
  have hC := C76_edwards25519
  have hcl0 := C58_edwards (EDWARDS25519, 2 ^ 255 - 19) (List.mem_cons.2 (Or.inl rfl))
  rw [Inst.c25519_p_eq] at hC hcl0 ⊢
  obtain ⟨_, e, _, m, he, hm, -, hcard⟩ := hC
  obtain ⟨_, e', _, he', G, g, hG, hg, hcl⟩ := hcl0
  change EDWARDS25519 = _ at he'
  rw [he, R.ok.injEq] at he'
  subst he'
  rw [edwards25519_eq, R.ok.injEq] at he
  subst he
  have hv := edwards25519_valid
  have hfin : Finite (eGroup curve25519_p edwards25519) := Cof.finiteE (a := val curve25519_p edwards25519.a) (d := val curve25519_p edwards25519.d) hv.curve.params.odd
  have ho : addOrderOf g = edwards25519.r := by
    obtain ⟨G', g', hG', hg', ho⟩ := hv.generator
    rw [hG, R.ok.injEq] at hG'
    subst hG'
    rw [EdMap.eDenotes_unique hg hg']; exact ho
  let S : Set (eGroup curve25519_p edwards25519) := {A | ∃ u, Canon curve25519_p u ∧ EReturns curve25519_p edwards25519 (m.map u) A}
  have hS : S.ncard = 2 ^ 254 - 9 := hcard
  have h8 : edwards25519.h = 8 := by decide +kernel
  have hr1 : 1 ≤ edwards25519.r := by decide +kernel
  have hlt : (edwards25519.h : ℤ) < edwards25519.r := by decide +kernel
  have hmul : ∀ (prof : Profile) P B, EDenotes curve25519_p edwards25519 P B →
      EReturns curve25519_p edwards25519 (do P.mul prof (← edwards25519.newScalar edwards25519.getCofactor)) (8 • B) := by
    intro prof P B hP
    simp only [R.ok_bind, Edwards.Curve.newScalar, scalar_new_eq edwards25519.r hr1, Edwards.Curve.getCofactor]
    rw [Int.emod_eq_of_lt (by omega) hlt]
    have := C37_mul_partial _ _ hv.order_bits prof P B hP ⟨edwards25519.h, edwards25519.r⟩
      ⟨rfl, by simp, by simpa using hlt⟩ (Or.inl (by simp only [ne_eq]; omega))
    have h8' : ((⟨edwards25519.h, edwards25519.r⟩ : Scalar).k) • B = 8 • B := by
      simp only [h8]; exact natCast_zsmul B 8
    rwa [h8'] at this
  have h0 : S.Nonempty := by
    rw [← Set.ncard_pos, hS]; norm_num
  have hk := fun (t : ℕ) => cover 8 edwards25519.r hv.order_prime (by
      rw [Int.isCoprime_iff_gcd_eq_one]; decide +kernel) Inst.card_edwards25519 g ho S h0 (fun A hA => by
      obtain ⟨u, -, P, hP, hd⟩ := hA
      obtain ⟨n, Q, hQ, hQd⟩ := hcl .release P A hd
      obtain ⟨Q', hQ', hQd'⟩ := hmul .release P A hd
      rw [hQ, R.ok.injEq] at hQ'
      subst hQ'
      exact ⟨n, EdMap.eDenotes_unique hQd' hQd⟩) t
  obtain ⟨k1, k2⟩ := hk (2 ^ 251 - 1) (by rw [hS]; norm_num)
  refine ⟨inferInstance, edwards25519, inferInstance, m, edwards25519_eq, hm, G, g, hG, hg, by rw [ho]; decide +kernel, fun prof => ⟨?_, fun n => ?_⟩⟩
  · refine lt_of_le_of_lt (Set.ncard_le_ncard ?_) (lt_of_le_of_lt k1 (by decide +kernel))
    rintro A ⟨hA, hmiss⟩
    refine ⟨hA, ?_⟩
    rintro B ⟨u, hu, P, hP, hPd⟩ C ⟨v, hv', Q, hQ, hQd⟩ h
    refine hmiss u v hu hv' ?_
    obtain ⟨W, hW, hWd⟩ := (C36_group_law _ _ P Q B C hPd hQd).1
    simp only [hP, hQ, hW, R.ok_bind]
    rw [← h]
    exact hmul prof W _ hWd
  · obtain ⟨B, ⟨u, hu, P, hP, hPd⟩, C, ⟨v, hv', Q, hQ, hQd⟩, D, ⟨w, hw, X, hX, hXd⟩, h⟩ := k2 (by decide +kernel) n
    refine ⟨u, v, w, hu, hv', hw, ?_⟩
    obtain ⟨W, hW, hWd⟩ := (C36_group_law _ _ P Q B C hPd hQd).1
    obtain ⟨Y, hY, hYd⟩ := (C36_group_law _ _ W X _ D hWd hXd).1
    simp only [hP, hQ, hX, hW, hY, R.ok_bind]
    rw [← h]
    exact hmul prof Y _ hYd

/-- Two inputs whose images, cleared of the cofactor, differ, on both curves. -/
example : (do let m ← Montgomery.Ell2.new curve25519 (← curve25519.f.fromPrim 2)
              let c ← curve25519.newScalar curve25519.getCofactor
              (← (← m.map ⟨1, ⟨curve25519_p⟩⟩).mul .debug c).eq (← (← m.map ⟨2, ⟨curve25519_p⟩⟩).mul .debug c)) = R.ok false ∧
    (do let m ← Edwards.Ell2.new edwards25519 (← edwards25519.getField.fromPrim 2) (some (← edwards25519_to_curve25519).toRationalMap)
        let c ← edwards25519.newScalar edwards25519.getCofactor
        (← (← m.map ⟨1, ⟨curve25519_p⟩⟩).mul .debug c).eq (← (← m.map ⟨2, ⟨curve25519_p⟩⟩).mul .debug c)) = R.ok false := by
  constructor <;> decide +kernel

end Redox.Props.Cover
