import Verif.Instances.IsoGridSecp
import Verif.Instances.IsoGridBls
import Verif.Props.CofactorProps

/-!
# C67: the isogenies are homomorphisms of groups
-/

set_option maxRecDepth 100000

namespace Redox.Props.Isog

open Spec Weierstrass WLink Redox.Inst CofLink

/-- `push` after `normalize`. -/
def pushN (m : IsoMap) (P : Point) : R Point := do m.push (← P.normalize)

section
variable {p : ℕ} [Fact p.Prime] {m : IsoMap} {φ : (wGroup p m.e0).Point →+ (wGroup p m.e1).Point}

theorem pushN_returns (h : IsoOK p m) (hφ : ∀ A, IsoImage m A (φ A)) {P : Point} {A : (wGroup p m.e0).Point}
    (hP : WDenotes p m.e0 P A) (hA : φ A ≠ 0) : WReturns p m.e1 (pushN m P) (φ A) := by
  obtain ⟨N, hN, hNd, hz⟩ := normalize_denotes h.e0 hP (by rintro rfl; exact hA (map_zero φ))
  obtain ⟨x, y, hn, rfl, rfl⟩ := affine_of_one hNd hz
  have hk : ¬ InKernel p m x := fun hk => hA (image_unique (hφ _) (show IsoImage m (.some x y hn) .zero from hk))
  obtain ⟨B, hB, hret⟩ := push_affine (hn := hn) h hk
  rw [pushN, hN, R.ok_bind, image_unique (hφ _) hB]
  exact hret

theorem push_add (h : IsoOK p m) (t0 : NoTwoTorsion p m.e0) (t1 : NoTwoTorsion p m.e1) (hφ : ∀ A, IsoImage m A (φ A))
    {P Q : Point} {A B : (wGroup p m.e0).Point} (hP : WDenotes p m.e0 P A) (hQ : WDenotes p m.e0 Q B) (hA : φ A ≠ 0) (hB : φ B ≠ 0)
    (hAB : φ A + φ B ≠ 0) :
    (do (← (← pushN m P).add (← pushN m Q)).eq (← pushN m (← P.add Q))) = R.ok true := by
  obtain ⟨S, hS, hSd⟩ := pushN_returns h hφ hP hA
  obtain ⟨T, hT, hTd⟩ := pushN_returns h hφ hQ hB
  obtain ⟨V, hV, hVd⟩ := (C23_group_law p m.e0 h.e0 t0 P Q A B hP hQ).1
  obtain ⟨U, hU, hUd⟩ := pushN_returns h hφ hVd (by rwa [map_add])
  obtain ⟨Z, hZ, hZd⟩ := (C23_group_law p m.e1 h.e1 t1 S T _ _ hSd hTd).1
  simp only [hS, hT, hV, hU, hZ, R.ok_bind]
  rw [C27_eq p m.e1 Z U _ _ hZd hUd, map_add, decide_eq_true rfl]

theorem push_mul (h0 : WValid p m.e0) (h1 : WValid p m.e1) (hr : m.e0.r = m.e1.r) (h : IsoOK p m)
    (hφ : ∀ A, IsoImage m A (φ A)) (prof : Profile)
    {P : Point} {A : (wGroup p m.e0).Point} (hP : WDenotes p m.e0 P A) (k : Scalar) (hk : CanonScalar m.e0.r k) (hk0 : k.k ≠ 0)
    (hA : φ A ≠ 0) (hkA : k.k • φ A ≠ 0) :
    (do (← (← pushN m P).mul prof k).eq (← pushN m (← P.mul prof k))) = R.ok true := by
  obtain ⟨S, hS, hSd⟩ := pushN_returns h hφ hP hA
  obtain ⟨V, hV, hVd⟩ := C25_mul_partial p m.e0 h.e0 h0.complete h0.order_bits prof P A hP k hk (Or.inl hk0)
  obtain ⟨U, hU, hUd⟩ := pushN_returns h hφ hVd (by rwa [map_zsmul])
  obtain ⟨Z, hZ, hZd⟩ := C25_mul_partial p m.e1 h.e1 h1.complete h1.order_bits prof S _ hSd k (hr ▸ hk) (Or.inl hk0)
  simp only [hS, hV, hU, hZ, R.ok_bind]
  rw [C27_eq p m.e1 Z U _ _ hZd hUd, map_zsmul, decide_eq_true rfl]

end

/-! ## secp256k1 -/

theorem secp_inj (φ : (wGroup secp256k1_p isoSecp256k1.e0).Point →+ (wGroup secp256k1_p isoSecp256k1.e1).Point)
    (hφ : ∀ A, IsoImage isoSecp256k1 A (φ A)) : Function.Injective φ := by
  rw [injective_iff_map_eq_zero]
  intro A hA
  have := hφ A
  rw [hA] at this
  rcases A with _ | ⟨x, y, hn⟩
  · rfl
  · exact absurd this (secp_kernel hn)

/-- C67, secp256k1: the map that `get_isogeny_secp256k1()` describes, infinity going to infinity, is an isomorphism from the
group of `SECP256K1_3ISO` to the group of `SECP256K1`. -/
theorem _root_.Redox.Props.C67_secp256k1 (m : IsoMap) (hm : get_isogeny_secp256k1 = R.ok m) :
    ∃ φ : (wGroup secp256k1_p m.e0).Point →+ (wGroup secp256k1_p m.e1).Point,
      (∀ A, IsoImage m A (φ A)) ∧ Function.Bijective φ := by
  rw [isoSecp256k1_eq, R.ok.injEq] at hm
  subst hm
  obtain ⟨φ, hφ⟩ := isoSecp256k1_hom
  refine ⟨φ, hφ, ?_⟩
  haveI := Inst.w_finite (p := secp256k1_p) (e := isoSecp256k1.e0) isoSecp256k1_ok.e0
  haveI := Inst.w_finite (p := secp256k1_p) (e := isoSecp256k1.e1) isoSecp256k1_ok.e1
  refine (Nat.bijective_iff_injective_and_card φ).2 ⟨secp_inj φ hφ, ?_⟩
  have c0 : Nat.card (wGroup secp256k1_p isoSecp256k1.e0).Point = _ := Inst.card_of_valid secp256k1_3iso_valid (by decide +kernel)
  have c1 : Nat.card (wGroup secp256k1_p isoSecp256k1.e1).Point = _ := Inst.card_of_valid secp256k1_valid (by decide +kernel)
  rw [c0, c1]
  rfl

theorem secp_ne {φ : (wGroup secp256k1_p isoSecp256k1.e0).Point →+ (wGroup secp256k1_p isoSecp256k1.e1).Point}
    (hφ : ∀ A, IsoImage isoSecp256k1 A (φ A)) {A : (wGroup secp256k1_p isoSecp256k1.e0).Point} (hA : A ≠ 0) : φ A ≠ 0 :=
  fun h => hA ((injective_iff_map_eq_zero φ).1 (secp_inj φ hφ) A h)

/-- C67, secp256k1, `push` and addition: for all points `P`, `Q` other than the identity and not opposite to each other, pushing
the sum gives a point equal to the sum of the points pushed. The representatives are normalised before each `push`: see
`C45_refuted_projective`. Partial: for the identity see `C45_refuted_identity`. -/
theorem _root_.Redox.Props.C67_secp256k1_add_partial (m : IsoMap) (hm : get_isogeny_secp256k1 = R.ok m) (P Q : Point)
    (A B : (wGroup secp256k1_p m.e0).Point) (hP : WDenotes secp256k1_p m.e0 P A) (hQ : WDenotes secp256k1_p m.e0 Q B)
    (hA : A ≠ 0) (hB : B ≠ 0) (hAB : A + B ≠ 0) :
    (do (← (← pushN m P).add (← pushN m Q)).eq (← pushN m (← P.add Q))) = R.ok true := by
  rw [isoSecp256k1_eq, R.ok.injEq] at hm
  subst hm
  obtain ⟨φ, hφ⟩ := isoSecp256k1_hom
  exact push_add isoSecp256k1_ok secp256k1_3iso_valid.complete secp256k1_valid.complete hφ hP hQ (secp_ne hφ hA) (secp_ne hφ hB)
    (by rw [← map_add]; exact secp_ne hφ hAB)

/-- C67, secp256k1, `push` and multiplication by a scalar. Partial: as above, and for the zero scalar, whose product is the
identity. -/
theorem _root_.Redox.Props.C67_secp256k1_mul_partial (m : IsoMap) (hm : get_isogeny_secp256k1 = R.ok m) (prof : Profile) (P : Point)
    (A : (wGroup secp256k1_p m.e0).Point) (hP : WDenotes secp256k1_p m.e0 P A) (hA : A ≠ 0) (k : Scalar)
    (hk : CanonScalar m.e0.r k) (hk0 : k.k ≠ 0) :
    (do (← (← pushN m P).mul prof k).eq (← pushN m (← P.mul prof k))) = R.ok true := by
  rw [isoSecp256k1_eq, R.ok.injEq] at hm
  subst hm
  obtain ⟨φ, hφ⟩ := isoSecp256k1_hom
  refine push_mul secp256k1_3iso_valid secp256k1_valid (by decide +kernel) isoSecp256k1_ok hφ prof hP k hk hk0 (secp_ne hφ hA) ?_
  rw [← map_zsmul]
  refine secp_ne hφ fun h0 => hA ?_
  have c0 : Nat.card (wGroup secp256k1_p isoSecp256k1.e0).Point = isoSecp256k1.e0.r :=
    Inst.card_of_valid secp256k1_3iso_valid (by decide +kernel)
  haveI := Inst.w_finite (p := secp256k1_p) (e := isoSecp256k1.e0) isoSecp256k1_ok.e0
  have hpr : isoSecp256k1.e0.r.Prime := secp256k1_3iso_valid.order_prime
  have h1 : addOrderOf A ∣ isoSecp256k1.e0.r := c0 ▸ addOrderOf_dvd_natCard A
  rcases (Nat.dvd_prime hpr).1 h1 with h | h
  · exact AddMonoid.addOrderOf_eq_one_iff.1 h
  · exfalso
    have h2 := addOrderOf_dvd_iff_zsmul_eq_zero.2 h0
    rw [h] at h2
    obtain ⟨-, k1, k2⟩ := hk
    have := Int.le_of_dvd (by omega) h2
    omega

/-- The hypotheses hold at the generator of `SECP256K1_3ISO`, taken twice. -/
example : ∃ P A, WDenotes secp256k1_p isoSecp256k1.e0 P A ∧ A ≠ 0 ∧ A + A ≠ 0 ∧ CanonScalar isoSecp256k1.e0.r ⟨3, isoSecp256k1.e0.r⟩ := by
  have hv : WValid secp256k1_p isoSecp256k1.e0 := secp256k1_3iso_valid
  obtain ⟨G, g, -, hg, ho⟩ := hv.generator
  have ho' : addOrderOf g = isoSecp256k1.e0.r := ho
  refine ⟨G, g, hg, ?_, ?_, rfl, by decide +kernel, by decide +kernel⟩
  · rintro rfl
    rw [addOrderOf_zero] at ho'
    revert ho'
    decide +kernel
  · rw [← two_nsmul, Ne, ← addOrderOf_dvd_iff_nsmul_eq_zero, ho']
    decide +kernel

/-! ## BLS12-381 G1 -/

theorem bls_ker (φ : (wGroup bls12381g1_p isoBls12381g1.e0).Point →+ (wGroup bls12381g1_p isoBls12381g1.e1).Point)
    (hφ : ∀ A, IsoImage isoBls12381g1 A (φ A)) : Nat.card φ.ker = 11 := by
  haveI := Inst.w_finite (p := bls12381g1_p) (e := isoBls12381g1.e0) isoBls12381g1_ok.e0
  have hle : Nat.card φ.ker ≤ 11 := by
    classical
    let s : Finset (Option (ZMod bls12381g1_p × Bool)) :=
      insert none (((isoBls12381g1_kernel.map (Nat.cast : ℕ → ZMod bls12381g1_p)).toFinset ×ˢ Finset.univ).map
        ⟨some, Option.some_injective _⟩)
    have hs : s.card ≤ 11 := by
      refine (Finset.card_insert_le _ _).trans ?_
      rw [Finset.card_map, Finset.card_product]
      have : (isoBls12381g1_kernel.map (Nat.cast : ℕ → ZMod bls12381g1_p)).toFinset.card ≤ 5 :=
        (List.toFinset_card_le _).trans (by rw [List.length_map]; decide +kernel)
      have h2 : (Finset.univ : Finset Bool).card = 2 := rfl
      rw [h2]
      omega
    have hinj : Function.Injective fun A : φ.ker => (⟨Count.code A.1, by
        obtain ⟨A, hA⟩ := A
        have h1 := hφ A
        rw [show φ A = 0 from hA] at h1
        rcases A with _ | ⟨x, y, hn⟩
        · exact Finset.mem_insert_self _ _
        · obtain ⟨r, hr, rfl⟩ := (isoBls12381g1_inKernel x).1 h1
          refine Finset.mem_insert_of_mem (Finset.mem_map.2 ⟨_, Finset.mem_product.2 ⟨?_, Finset.mem_univ _⟩, rfl⟩)
          exact List.mem_toFinset.2 (List.mem_map.2 ⟨r, hr, rfl⟩)⟩ : s) := by
      intro A B h
      exact Subtype.ext (Count.code_injective isoBls12381g1_ok.e0.odd (wGroup bls12381g1_p isoBls12381g1.e0) rfl rfl
        (Subtype.ext_iff.1 h))
    have := Nat.card_le_card_of_injective _ hinj
    rw [Nat.card_eq_fintype_card (α := s), Fintype.card_coe] at this
    exact this.trans hs
  have hx : Canon bls12381g1_p blsKx := ⟨rfl, by decide +kernel, by decide +kernel⟩
  have hy : Canon bls12381g1_p blsKy := ⟨rfl, by decide +kernel, by decide +kernel⟩
  obtain ⟨hh, e1⟩ := wTors_spec (p := bls12381g1_p) bls12381g1_11iso_valid hx hy (k := 11) (b := true) (by decide +kernel)
    (by decide +kernel)
  have hK : φ (.some _ _ hh) = 0 := by
    refine image_unique (hφ _) (show IsoImage isoBls12381g1 _ .zero from ?_)
    exact (isoBls12381g1_inKernel _).2 ⟨blsKx.n.toNat, by decide +kernel, RLink.val_toNat hx⟩
  haveI : Fact (Nat.Prime 11) := ⟨by norm_num⟩
  have hord := addOrderOf_eq_prime (e1.2 rfl) (WeierstrassCurve.Affine.Point.some_ne_zero hh)
  have hd : 11 ∣ Nat.card φ.ker := by
    have h1 : addOrderOf (⟨.some _ _ hh, hK⟩ : φ.ker) = 11 := by
      rw [← hord]
      exact (AddSubgroup.addOrderOf_coe (⟨.some _ _ hh, hK⟩ : φ.ker)).symm
    exact h1 ▸ addOrderOf_dvd_natCard _
  have hpos : 0 < Nat.card φ.ker := Nat.card_pos
  have := Nat.le_of_dvd hpos hd
  omega

/-- C67, BLS12-381 G1: the map that `get_isogeny_bls12381g1()` describes, infinity and the points at which a denominator
vanishes going to infinity, is a homomorphism from the group of `BLS12381G1_11ISO` to the group of `BLS12381G1` with a kernel
of eleven points. -/
theorem _root_.Redox.Props.C67_bls12381g1 (m : IsoMap) (hm : get_isogeny_bls12381g1 = R.ok m) :
    ∃ φ : (wGroup bls12381g1_p m.e0).Point →+ (wGroup bls12381g1_p m.e1).Point,
      (∀ A, IsoImage m A (φ A)) ∧ Nat.card φ.ker = 11 := by
  rw [isoBls12381g1_eq, R.ok.injEq] at hm
  subst hm
  obtain ⟨φ, hφ⟩ := isoBls12381g1_hom
  exact ⟨φ, hφ, bls_ker φ hφ⟩

/-- C67, BLS12-381 G1, `push` and addition: for all points `P`, `Q` such that neither is in the kernel, nor their sum. Partial: on
the kernel and at the identity `push` panics, see `C46_refuted_push` and `C46_refuted_identity`. -/
theorem _root_.Redox.Props.C67_bls12381g1_add_partial (m : IsoMap) (hm : get_isogeny_bls12381g1 = R.ok m) (P Q : Point)
    (A B : (wGroup bls12381g1_p m.e0).Point) (hP : WDenotes bls12381g1_p m.e0 P A) (hQ : WDenotes bls12381g1_p m.e0 Q B)
    (hA : ¬ IsoImage m A 0) (hB : ¬ IsoImage m B 0) (hAB : ¬ IsoImage m (A + B) 0) :
    (do (← (← pushN m P).add (← pushN m Q)).eq (← pushN m (← P.add Q))) = R.ok true := by
  rw [isoBls12381g1_eq, R.ok.injEq] at hm
  subst hm
  obtain ⟨φ, hφ⟩ := isoBls12381g1_hom
  have hne : ∀ {A}, ¬ IsoImage isoBls12381g1 A 0 → φ A ≠ 0 := fun {A} h h' => h (h' ▸ hφ A)
  exact push_add isoBls12381g1_ok bls12381g1_11iso_valid.complete bls12381g1_valid.complete hφ hP hQ (hne hA) (hne hB)
    (by rw [← map_add]; exact hne hAB)

/-- C67, BLS12-381 G1, `push` and multiplication by a scalar. Partial: as above. -/
theorem _root_.Redox.Props.C67_bls12381g1_mul_partial (m : IsoMap) (hm : get_isogeny_bls12381g1 = R.ok m) (prof : Profile)
    (P : Point) (A : (wGroup bls12381g1_p m.e0).Point) (hP : WDenotes bls12381g1_p m.e0 P A) (k : Scalar)
    (hk : CanonScalar m.e0.r k) (hk0 : k.k ≠ 0) (hA : ¬ IsoImage m A 0) (hkA : ¬ IsoImage m (k.k • A) 0) :
    (do (← (← pushN m P).mul prof k).eq (← pushN m (← P.mul prof k))) = R.ok true := by
  rw [isoBls12381g1_eq, R.ok.injEq] at hm
  subst hm
  obtain ⟨φ, hφ⟩ := isoBls12381g1_hom
  have hne : ∀ {A}, ¬ IsoImage isoBls12381g1 A 0 → φ A ≠ 0 := fun {A} h h' => h (h' ▸ hφ A)
  exact push_mul bls12381g1_11iso_valid bls12381g1_valid (by decide +kernel) isoBls12381g1_ok hφ prof hP k hk hk0 (hne hA)
    (by rw [← map_zsmul]; exact hne hkA)

/-- The hypotheses hold at the generator of `BLS12381G1_11ISO`, taken twice, and the scalar 3. -/
example : ∃ P A, WDenotes bls12381g1_p isoBls12381g1.e0 P A ∧ ¬ IsoImage isoBls12381g1 A 0 ∧ ¬ IsoImage isoBls12381g1 (A + A) 0 ∧
    CanonScalar isoBls12381g1.e0.r ⟨3, isoBls12381g1.e0.r⟩ ∧ ¬ IsoImage isoBls12381g1 ((3 : ℤ) • A) 0 := by
  have hv : WValid bls12381g1_p isoBls12381g1.e0 := bls12381g1_11iso_valid
  obtain ⟨G, g, -, hg, ho⟩ := hv.generator
  have ho' : addOrderOf g = isoBls12381g1.e0.r := ho
  obtain ⟨φ, hφ⟩ := isoBls12381g1_hom
  have key : ∀ n : ℕ, ¬ isoBls12381g1.e0.r ∣ 11 * n → ¬ IsoImage isoBls12381g1 (n • g) 0 := by
    intro n hn h
    have h0 : φ (n • g) = 0 := image_unique (hφ _) h
    have h3 := addOrderOf_dvd_natCard (⟨_, h0⟩ : φ.ker)
    rw [bls_ker φ hφ, addOrderOf_dvd_iff_nsmul_eq_zero] at h3
    have h4 : 11 • n • g = 0 := congrArg Subtype.val h3
    rw [← mul_smul, ← addOrderOf_dvd_iff_nsmul_eq_zero, ho'] at h4
    exact hn h4
  refine ⟨G, g, hg, ?_, ?_, ⟨rfl, by decide +kernel, by decide +kernel⟩, ?_⟩
  · simpa using key 1 (by decide +kernel)
  · simpa [two_nsmul] using key 2 (by decide +kernel)
  · exact_mod_cast key 3 (by decide +kernel)

end Redox.Props.Isog
