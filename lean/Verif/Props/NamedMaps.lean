import Verif.Props.MapProps
import Verif.Props.EdwMapProps
import Verif.Props.IsogenyProps
import Verif.Props.CofactorProps
import Verif.Props.WeierCodec
import Verif.Props.MontCodec
import Verif.Props.EdwCodec

/-! # Hashing to the built-in curves and encoding their points (C65, C66) -/

set_option maxRecDepth 100000

namespace Redox.Props.Inst

open Redox.Spec Redox.Inst

/-! ## Maps with the parameters of RFC 9380 -/

/-- Simplified SWU: curve, field size, `Z`. -/
def sswuSuites : List (R Weierstrass.Curve × ℕ × ℤ) :=
  [(P256, 2 ^ 256 - 2 ^ 224 + 2 ^ 192 + 2 ^ 96 - 1, -10),
   (P384, 2 ^ 384 - 2 ^ 128 - 2 ^ 96 + 2 ^ 32 - 1, -12),
   (P521, 2 ^ 521 - 1, -4)]

/-- Shallue-van de Woestijne: curve, field size, `Z`. -/
def svdwSuites : List (R Weierstrass.Curve × ℕ × ℤ) :=
  [(P256, 2 ^ 256 - 2 ^ 224 + 2 ^ 192 + 2 ^ 96 - 1, -3),
   (P384, 2 ^ 384 - 2 ^ 128 - 2 ^ 96 + 2 ^ 32 - 1, -1),
   (P521, 2 ^ 521 - 1, 1),
   (SECP256K1, 2 ^ 256 - 2 ^ 32 - 977, 1),
   (BLS12381G1, blsP, -3)]

/-- Elligator 2: curve, field size, `Z`. -/
def ell2Suites : List (R Montgomery.Curve × ℕ × ℤ) :=
  [(CURVE25519, 2 ^ 255 - 19, 2), (CURVE448, 2 ^ 448 - 2 ^ 224 - 1, -1)]

theorem fromPrim_val {p : ℕ} [Fact p.Prime] {f : Fp} (hf : f = ⟨p⟩) (n : ℤ) :
    ∃ z, f.fromPrim n = R.ok z ∧ Canon p z ∧ val p z = n := by
  subst hf
  exact ⟨el (n : ZMod p), by simp [Fp.fromPrim], canon_iff.2 ⟨_, rfl⟩, by simp⟩

/-- C65, simplified SWU: on P256, P384 and P521 with the `Z` of RFC 9380 the map is created, and for every `u` it returns the
point with the prescribed abscissa whose ordinate has the parity of `u`. -/
theorem _root_.Redox.Props.C65_sswu : ∀ t ∈ sswuSuites, ∃ (_ : Fact t.2.1.Prime) (e : Weierstrass.Curve) (m : Weierstrass.SSWU),
    t.1 = R.ok e ∧ (do Weierstrass.SSWU.new e (← e.f.fromPrim t.2.2)) = R.ok m ∧
      ∀ u, Canon t.2.1 u → ∃ y, ∃ hn : (wGroup t.2.1 e).Nonsingular
          (sswuX (val t.2.1 e.a) (val t.2.1 e.b) (t.2.2 : ZMod t.2.1) (val t.2.1 u)) y,
        WReturns t.2.1 e (m.map u) (.some _ y hn) ∧ (y = 0 ∨ y.val % 2 = (val t.2.1 u).val % 2) := by
  have key : ∀ (c : R Weierstrass.Curve) (p : ℕ) (Z : ℤ) [Fact p.Prime] (e : Weierstrass.Curve), c = R.ok e → WValid p e →
      p % 4 = 3 ∨ p % 8 = 5 → ((do Weierstrass.SSWU.new e (← e.f.fromPrim Z)).bind fun _ => R.ok true) = R.ok true →
      ∃ (_ : Fact p.Prime) (e : Weierstrass.Curve) (m : Weierstrass.SSWU),
      c = R.ok e ∧ (do Weierstrass.SSWU.new e (← e.f.fromPrim Z)) = R.ok m ∧
      ∀ u, Canon p u → ∃ y, ∃ hn : (wGroup p e).Nonsingular
          (sswuX (val p e.a) (val p e.b) (Z : ZMod p) (val p u)) y,
        WReturns p e (m.map u) (.some _ y hn) ∧ (y = 0 ∨ y.val % 2 = (val p u).val % 2) := by
    intro c p Z _ e hc hv hs hnew
    obtain ⟨m, hm, -⟩ := R.bind_eq_ok.1 hnew
    obtain ⟨z, hz, hzc, hzv⟩ := fromPrim_val hv.curve.field Z
    refine ⟨inferInstance, e, m, hc, hm, fun u hu => ?_⟩
    rw [hz, R.ok_bind] at hm
    rw [← hzv]
    exact C41_map p e hv.curve hs z u hzc hu m hm
  rw [sswuSuites, p256_p_eq, p384_p_eq, p521_p_eq]
  simp only [List.forall_mem_cons]
  exact ⟨key _ _ _ _ p256_eq p256_valid (by decide +kernel) (by decide +kernel),
    key _ _ _ _ p384_eq p384_valid (by decide +kernel) (by decide +kernel),
    key _ _ _ _ p521_eq p521_valid (by decide +kernel) (by decide +kernel), by simp⟩

/-- C65, Shallue-van de Woestijne: on five curves with the `Z` of RFC 9380 (and its drafts) the map is created, and for
every `u` it returns the point with the prescribed abscissa whose ordinate has the parity of `u`. -/
theorem _root_.Redox.Props.C65_svdw : ∀ t ∈ svdwSuites, ∃ (_ : Fact t.2.1.Prime) (e : Weierstrass.Curve) (m : Weierstrass.SVDW)
    (c : ZMod t.2.1), t.1 = R.ok e ∧ (do Weierstrass.SVDW.new e (← e.f.fromPrim t.2.2)) = R.ok m ∧
      c ^ 2 = -rhs (val t.2.1 e.a) (val t.2.1 e.b) t.2.2 * (3 * (t.2.2 : ZMod t.2.1) ^ 2 + 4 * val t.2.1 e.a) ∧ c.val % 2 = 0 ∧
      ∀ u, Canon t.2.1 u → ∃ y, ∃ hn : (wGroup t.2.1 e).Nonsingular
          (svdwX (val t.2.1 e.a) (val t.2.1 e.b) (t.2.2 : ZMod t.2.1) c (val t.2.1 u)) y,
        WReturns t.2.1 e (m.map u) (.some _ y hn) ∧ (y = 0 ∨ y.val % 2 = (val t.2.1 u).val % 2) := by
  have key : ∀ (cu : R Weierstrass.Curve) (p : ℕ) (Z : ℤ) [Fact p.Prime] (e : Weierstrass.Curve), cu = R.ok e → WValid p e →
      p % 4 = 3 ∨ p % 8 = 5 → ((do Weierstrass.SVDW.new e (← e.f.fromPrim Z)).bind fun _ => R.ok true) = R.ok true →
      ∃ (_ : Fact p.Prime) (e : Weierstrass.Curve) (m : Weierstrass.SVDW) (c : ZMod p),
      cu = R.ok e ∧ (do Weierstrass.SVDW.new e (← e.f.fromPrim Z)) = R.ok m ∧
      c ^ 2 = -rhs (val p e.a) (val p e.b) Z * (3 * (Z : ZMod p) ^ 2 + 4 * val p e.a) ∧ c.val % 2 = 0 ∧
      ∀ u, Canon p u → ∃ y, ∃ hn : (wGroup p e).Nonsingular
          (svdwX (val p e.a) (val p e.b) (Z : ZMod p) c (val p u)) y,
        WReturns p e (m.map u) (.some _ y hn) ∧ (y = 0 ∨ y.val % 2 = (val p u).val % 2) := by
    intro cu p Z _ e hc hv hs hnew
    obtain ⟨m, hm, -⟩ := R.bind_eq_ok.1 hnew
    obtain ⟨z, hz, hzc, hzv⟩ := fromPrim_val hv.curve.field Z
    have hm' := hm
    rw [hz, R.ok_bind] at hm'
    obtain ⟨c, h1, h2, h3⟩ := C42_map p e hv.curve hs z hzc m hm'
    rw [hzv] at h1 h3
    exact ⟨inferInstance, e, m, c, hc, hm, h1, h2, h3⟩
  rw [svdwSuites, p256_p_eq, p384_p_eq, p521_p_eq, secp256k1_p_eq, bls_p_eq]
  simp only [List.forall_mem_cons]
  exact ⟨key _ _ _ _ p256_eq p256_valid (by decide +kernel) (by decide +kernel),
    key _ _ _ _ p384_eq p384_valid (by decide +kernel) (by decide +kernel),
    key _ _ _ _ p521_eq p521_valid (by decide +kernel) (by decide +kernel),
    key _ _ _ _ secp256k1_eq secp256k1_valid (by decide +kernel) (by decide +kernel),
    key _ _ _ _ bls12381g1_eq bls12381g1_valid (by decide +kernel) (by decide +kernel), by simp⟩

/-- C65, Elligator 2: on both Montgomery curves with the `Z` of RFC 9380 the map is created, and for every `u` it returns
the point with the prescribed abscissa and the prescribed sign. -/
theorem _root_.Redox.Props.C65_ell2 : ∀ t ∈ ell2Suites, ∃ (_ : Fact t.2.1.Prime) (e : Montgomery.Curve)
    (m : Montgomery.Ell2), t.1 = R.ok e ∧ (do Montgomery.Ell2.new e (← e.f.fromPrim t.2.2)) = R.ok m ∧
      ∀ u, Canon t.2.1 u → ∃ y, ∃ hn : (mGroup t.2.1 e).Nonsingular
          (ell2X (val t.2.1 e.a) 1 (t.2.2 : ZMod t.2.1) (val t.2.1 u)) y,
        Ell2Sign (val t.2.1 e.a) t.2.2 (val t.2.1 u) y ∧ MReturns t.2.1 e (m.map u) (.some _ y hn) := by
  have key : ∀ (cu : R Montgomery.Curve) (p : ℕ) (Z : ℤ) [Fact p.Prime] (e : Montgomery.Curve), cu = R.ok e → MValid p e →
      p % 4 = 3 ∨ p % 8 = 5 → ((do Montgomery.Ell2.new e (← e.f.fromPrim Z)).bind fun _ => R.ok true) = R.ok true →
      ¬ IsSquare (Z : ZMod p) →
      ∃ (_ : Fact p.Prime) (e : Montgomery.Curve) (m : Montgomery.Ell2),
      cu = R.ok e ∧ (do Montgomery.Ell2.new e (← e.f.fromPrim Z)) = R.ok m ∧
      ∀ u, Canon p u → ∃ y, ∃ hn : (mGroup p e).Nonsingular (ell2X (val p e.a) 1 (Z : ZMod p) (val p u)) y,
        Ell2Sign (val p e.a) Z (val p u) y ∧ MReturns p e (m.map u) (.some _ y hn) := by
    intro cu p Z _ e hc hv hs hnew hns
    obtain ⟨m, hm, -⟩ := R.bind_eq_ok.1 hnew
    obtain ⟨z, hz, hzc, hzv⟩ := fromPrim_val hv.curve.field Z
    refine ⟨inferInstance, e, m, hc, hm, fun u hu => ?_⟩
    rw [hz, R.ok_bind] at hm
    rw [← hzv] at hns ⊢
    exact C43_group_partial p e hv.curve hv.b_one hs z u hzc hns hu m hm
  rw [ell2Suites, c25519_p_eq, c448_p_eq]
  simp only [List.forall_mem_cons]
  refine ⟨key _ _ _ _ curve25519_eq curve25519_valid (by decide +kernel) (by decide +kernel) ?_,
    key _ _ _ _ curve448_eq curve448_valid (by decide +kernel) (by decide +kernel) ?_, by simp⟩
  · have := NoRoot.not_isSquare_of_pow (p := curve25519_p) 2 (by decide +kernel) (by decide +kernel)
    simpa using this
  · have := NoRoot.not_isSquare_of_pow (p := curve448_p) (curve448_p - 1) (by decide +kernel) (by decide +kernel)
    have e : ((curve448_p - 1 : ℕ) : ZMod curve448_p) = -1 := by
      rw [Nat.cast_sub (by decide +kernel)]; simp
    rw [e] at this
    simpa using this

/-! ## Two maps, addition, cofactor clearing -/

/-- Hash to curve (RFC 9380, section 3) after hashing to the field: map both elements, add, clear the cofactor. -/
def wHash (prof : Profile) (e : Weierstrass.Curve) (map : FpElt → R Weierstrass.Point) (u0 u1 : FpElt) :
    R Weierstrass.Point := do
  let S ← (← map u0).add (← map u1)
  S.mul prof (← e.newScalar e.getCofactor)

def mHash (prof : Profile) (e : Montgomery.Curve) (map : FpElt → R Montgomery.Point) (u0 u1 : FpElt) :
    R Montgomery.Point := do
  let S ← (← map u0).add (← map u1)
  S.mul prof (← e.newScalar e.getCofactor)

def eHash (prof : Profile) (e : Edwards.Curve) (map : FpElt → R Edwards.Point) (u0 u1 : FpElt) : R Edwards.Point := do
  let S ← (← map u0).add (← map u1)
  S.mul prof (← e.newScalar e.getCofactor)

/-- The maps to Weierstrass curves with their parameters. -/
def wMaps : List (R Weierstrass.Curve × ℕ × R (FpElt → R Weierstrass.Point)) :=
  sswuSuites.map (fun t => (t.1, t.2.1, do
    let e ← t.1
    return (← Weierstrass.SSWU.new e (← e.f.fromPrim t.2.2)).map)) ++
  svdwSuites.map (fun t => (t.1, t.2.1, do
    let e ← t.1
    return (← Weierstrass.SVDW.new e (← e.f.fromPrim t.2.2)).map)) ++
  [(SECP256K1, 2 ^ 256 - 2 ^ 32 - 977, do
    let m ← get_isogeny_secp256k1
    return (← Weierstrass.SSWUAB0.new m.e1 (← m.e1.f.fromPrim (-11)) m.toIsogeny).map)]

def mMaps : List (R Montgomery.Curve × ℕ × R (FpElt → R Montgomery.Point)) :=
  ell2Suites.map (fun t => (t.1, t.2.1, do
    let e ← t.1
    return (← Montgomery.Ell2.new e (← e.f.fromPrim t.2.2)).map))

theorem wHash_of {p : ℕ} [Fact p.Prime] {e : Weierstrass.Curve} (hv : WValid p e) {map : FpElt → R Weierstrass.Point}
    (hmap : ∀ u, Canon p u → ∃ A, WReturns p e (map u) A)
    (hcl : ∃ G g, e.getGenerator = R.ok G ∧ WDenotes p e G g ∧
      ∀ (prof : Profile) (P : Weierstrass.Point) (A : (wGroup p e).Point), WDenotes p e P A →
        ∃ n : ℤ, WReturns p e (do P.mul prof (← e.newScalar e.getCofactor)) (n • g)) :
    ∃ G g, e.getGenerator = R.ok G ∧ WDenotes p e G g ∧ ∀ (prof : Profile) u0 u1, Canon p u0 → Canon p u1 →
      ∃ n : ℤ, WReturns p e (wHash prof e map u0 u1) (n • g) := by
  obtain ⟨G, g, hG, hg, hcl⟩ := hcl
  refine ⟨G, g, hG, hg, fun prof u0 u1 h0 h1 => ?_⟩
  obtain ⟨A, P, hP, hPA⟩ := hmap u0 h0
  obtain ⟨B, Q, hQ, hQB⟩ := hmap u1 h1
  obtain ⟨S, hS, hSd⟩ := (C23_group_law p e hv.curve hv.complete P Q A B hPA hQB).1
  unfold wHash
  simp only [hP, hQ, hS, R.ok_bind]
  exact hcl prof S _ hSd

/-- C65, Weierstrass: for every pair of field elements, in both build profiles, adding the two images and clearing the
cofactor does not panic and gives a multiple of the generator. -/
theorem _root_.Redox.Props.C65_hash_weierstrass : ∀ t ∈ wMaps, ∃ (_ : Fact t.2.1.Prime) (e : Weierstrass.Curve) (map : _),
    t.1 = R.ok e ∧ t.2.2 = R.ok map ∧ ∃ G g, e.getGenerator = R.ok G ∧ WDenotes t.2.1 e G g ∧
      ∀ (prof : Profile) u0 u1, Canon t.2.1 u0 → Canon t.2.1 u1 →
        ∃ n : ℤ, WReturns t.2.1 e (wHash prof e map u0 u1) (n • g) := by
  have hval : ∀ t ∈ clearList, ∀ (h : Fact t.2.Prime) (e : Weierstrass.Curve), t.1 = R.ok e → WValid t.2 e := by
    rw [clearList, weierstrassList, p256_p_eq, p384_p_eq, p521_p_eq, secp256k1_p_eq, bls_p_eq]
    simp only [List.take, List.forall_mem_cons]
    refine ⟨fun _ e h => ?_, fun _ e h => ?_, fun _ e h => ?_, fun _ e h => ?_, fun _ e h => ?_, fun _ e h => ?_, by simp⟩
    · rw [p256_eq, R.ok.injEq] at h; subst h; exact p256_valid
    · rw [p384_eq, R.ok.injEq] at h; subst h; exact p384_valid
    · rw [p521_eq, R.ok.injEq] at h; subst h; exact p521_valid
    · rw [secp256k1_eq, R.ok.injEq] at h; subst h; exact secp256k1_valid
    · rw [secp256k1_3iso_eq, R.ok.injEq] at h; subst h; exact secp256k1_3iso_valid
    · rw [bls12381g1_eq, R.ok.injEq] at h; subst h; exact bls12381g1_valid
  have key : ∀ (c : R Weierstrass.Curve) (p : ℕ) (M : R (FpElt → R Weierstrass.Point)), (c, p) ∈ clearList →
      (∃ (_ : Fact p.Prime) (e : Weierstrass.Curve) (map : _), c = R.ok e ∧ M = R.ok map ∧
        ∀ u, Canon p u → ∃ A, WReturns p e (map u) A) →
      ∃ (_ : Fact p.Prime) (e : Weierstrass.Curve) (map : _),
      c = R.ok e ∧ M = R.ok map ∧ ∃ G g, e.getGenerator = R.ok G ∧ WDenotes p e G g ∧
      ∀ (prof : Profile) u0 u1, Canon p u0 → Canon p u1 →
        ∃ n : ℤ, WReturns p e (wHash prof e map u0 u1) (n • g) := by
    rintro c p M hc ⟨hp, e, map, he, hM, hmap⟩
    refine ⟨hp, e, map, he, hM, ?_⟩
    obtain ⟨_, e', he', hcl⟩ := C58_weierstrass_partial _ hc
    rw [he, R.ok.injEq] at he'
    subst he'
    exact wHash_of (hval _ hc _ e he) hmap hcl
  have memc : ∀ t ∈ svdwSuites, (t.1, t.2.1) ∈ clearList := by
    simp [svdwSuites, clearList, weierstrassList]
  have memc' : ∀ t ∈ sswuSuites, (t.1, t.2.1) ∈ clearList := by
    simp [sswuSuites, clearList, weierstrassList]
  intro t ht
  rw [wMaps, List.mem_append, List.mem_append] at ht
  rcases ht with (ht | ht) | ht
  · obtain ⟨s, hs, rfl⟩ := List.mem_map.1 ht
    refine key _ _ _ (memc' s hs) ?_
    obtain ⟨hp, e, m, he, hm, h⟩ := C65_sswu s hs
    refine ⟨hp, e, m.map, he, by simp only [he, R.ok_bind]; simp only [← bind_assoc, hm]; rfl, fun u hu => ?_⟩
    obtain ⟨y, hn, hr, -⟩ := h u hu
    exact ⟨_, hr⟩
  · obtain ⟨s, hs, rfl⟩ := List.mem_map.1 ht
    refine key _ _ _ (memc s hs) ?_
    obtain ⟨hp, e, m, c, he, hm, -, -, h⟩ := C65_svdw s hs
    refine ⟨hp, e, m.map, he, by simp only [he, R.ok_bind]; simp only [← bind_assoc, hm]; rfl, fun u hu => ?_⟩
    obtain ⟨y, hn, hr, -⟩ := h u hu
    exact ⟨_, hr⟩
  · simp only [List.mem_cons, List.not_mem_nil, or_false] at ht
    subst ht
    refine key _ _ _ (by simp [clearList, weierstrassList]) ?_
    rw [secp256k1_p_eq]
    obtain ⟨m, z, M, hm, hz, hzc, hM⟩ := C45_new
    have he1 : SECP256K1 = R.ok m.e1 := by
      obtain ⟨m', hm', -, h, -⟩ := C45_get
      rw [hm, R.ok.injEq] at hm'; subst hm'; exact h
    refine ⟨inferInstance, m.e1, M.map, he1, by simp only [hm, hz, hM, R.ok_bind]; rfl, fun u hu => ?_⟩
    obtain ⟨y, hn, B, -, -, -, h⟩ := C45_map m hm z u hzc hu M hM
    exact ⟨B, h⟩

theorem mHash_of {p : ℕ} [Fact p.Prime] {e : Montgomery.Curve} (hv : MValid p e) {map : FpElt → R Montgomery.Point}
    (hmap : ∀ u, Canon p u → ∃ A, MReturns p e (map u) A)
    (hcl : ∃ G g, e.getGenerator = R.ok G ∧ MDenotes p e G g ∧
      ∀ (prof : Profile) (P : Montgomery.Point) (A : (mGroup p e).Point), MDenotes p e P A →
        ∃ n : ℤ, MReturns p e (do P.mul prof (← e.newScalar e.getCofactor)) (n • g)) :
    ∃ G g, e.getGenerator = R.ok G ∧ MDenotes p e G g ∧ ∀ (prof : Profile) u0 u1, Canon p u0 → Canon p u1 →
      ∃ n : ℤ, MReturns p e (mHash prof e map u0 u1) (n • g) := by
  obtain ⟨G, g, hG, hg, hcl⟩ := hcl
  refine ⟨G, g, hG, hg, fun prof u0 u1 h0 h1 => ?_⟩
  obtain ⟨A, P, hP, hPA⟩ := hmap u0 h0
  obtain ⟨B, Q, hQ, hQB⟩ := hmap u1 h1
  obtain ⟨S, hS, hSd⟩ := (C32_group_law_partial p e hv.curve hv.b_one hv.complete P Q A B hPA hQB).1
  unfold mHash
  simp only [hP, hQ, hS, R.ok_bind]
  exact hcl prof S _ hSd

/-- C65, Montgomery: for every pair of field elements, in both build profiles, adding the two images and clearing the
cofactor does not panic and gives a multiple of the generator. -/
theorem _root_.Redox.Props.C65_hash_montgomery : ∀ t ∈ mMaps, ∃ (_ : Fact t.2.1.Prime) (e : Montgomery.Curve) (map : _),
    t.1 = R.ok e ∧ t.2.2 = R.ok map ∧ ∃ G g, e.getGenerator = R.ok G ∧ MDenotes t.2.1 e G g ∧
      ∀ (prof : Profile) u0 u1, Canon t.2.1 u0 → Canon t.2.1 u1 →
        ∃ n : ℤ, MReturns t.2.1 e (mHash prof e map u0 u1) (n • g) := by
  have hval : ∀ t ∈ montgomeryList, ∀ (h : Fact t.2.Prime) (e : Montgomery.Curve), t.1 = R.ok e → MValid t.2 e := by
    rw [montgomeryList, c25519_p_eq, c448_p_eq]
    simp only [List.forall_mem_cons]
    refine ⟨fun _ e h => ?_, fun _ e h => ?_, by simp⟩
    · rw [curve25519_eq, R.ok.injEq] at h; subst h; exact curve25519_valid
    · rw [curve448_eq, R.ok.injEq] at h; subst h; exact curve448_valid
  have memc : ∀ t ∈ ell2Suites, (t.1, t.2.1) ∈ montgomeryList := by
    simp [ell2Suites, montgomeryList]
  intro t ht
  obtain ⟨s, hs, rfl⟩ := List.mem_map.1 ht
  obtain ⟨hp, e, m, he, hm, h⟩ := C65_ell2 s hs
  refine ⟨hp, e, m.map, he, by simp only [he, R.ok_bind]; simp only [← bind_assoc, hm]; rfl, ?_⟩
  obtain ⟨_, e', he', hcl⟩ := C58_montgomery _ (memc s hs)
  change s.1 = _ at he'
  rw [he, R.ok.injEq] at he'
  subst he'
  refine mHash_of (hval _ (memc s hs) _ e he) (fun u hu => ?_) hcl
  obtain ⟨y, hn, -, hr⟩ := h u hu
  exact ⟨_, hr⟩

/-- The map to `EDWARDS25519` of RFC 9380. -/
def map25519 : R (FpElt → R Edwards.Point) := do
  let e ← EDWARDS25519
  let r ← edwards25519_to_curve25519
  return (← Edwards.Ell2.new e (← e.getField.fromPrim 2) (some r.toRationalMap)).map

/-- The map to `EDWARDS448` of RFC 9380. -/
def map448 : R (FpElt → R Edwards.Point) := do
  let e ← EDWARDS448
  let r ← edwards448_to_curve448
  return (← Edwards.Ell2.new e (← e.getField.fromPrim (-1)) (some r.toRationalMap)).map

/-- C65, Edwards: for every pair of field elements (for `EDWARDS448`: other than 0, 1 and -1), in both build profiles,
adding the two images and clearing the cofactor does not panic and gives a multiple of the generator. Partial: on `EDWARDS448`
the inputs 0, 1 and -1 have no proper image, see `C44_refuted_448`. -/
theorem _root_.Redox.Props.C65_hash_edwards_partial : ∀ t ∈ [(EDWARDS25519, 2 ^ 255 - 19, map25519, ([] : List ℤ)),
      (EDWARDS448, 2 ^ 448 - 2 ^ 224 - 1, map448, [0, 1, -1])],
    ∃ (_ : Fact t.2.1.Prime) (e : Edwards.Curve) (_ : ECurve t.2.1 e) (map : _),
    t.1 = R.ok e ∧ t.2.2.1 = R.ok map ∧ ∃ G g, e.getGenerator = R.ok G ∧ EDenotes t.2.1 e G g ∧
      ∀ (prof : Profile) u0 u1, Canon t.2.1 u0 → Canon t.2.1 u1 →
        (∀ k ∈ t.2.2.2, val t.2.1 u0 ≠ (k : ℤ) ∧ val t.2.1 u1 ≠ (k : ℤ)) →
        ∃ n : ℤ, EReturns t.2.1 e (eHash prof e map u0 u1) (n • g) := by
  have key : ∀ (c : R Edwards.Curve) (p : ℕ) (M : R (FpElt → R Edwards.Point)) (l : List ℤ) [Fact p.Prime] (e : Edwards.Curve)
      (map : _), (c, p) ∈ edwardsList → c = R.ok e → EValid p e → M = R.ok map →
      (∀ u, Canon p u → (∀ k ∈ l, val p u ≠ (k : ℤ)) → ∃ A, EReturns p e (map u) A) →
      ∃ (_ : Fact p.Prime) (e : Edwards.Curve) (_ : ECurve p e) (map : _),
      c = R.ok e ∧ M = R.ok map ∧ ∃ G g, e.getGenerator = R.ok G ∧ EDenotes p e G g ∧
      ∀ (prof : Profile) u0 u1, Canon p u0 → Canon p u1 → (∀ k ∈ l, val p u0 ≠ (k : ℤ) ∧ val p u1 ≠ (k : ℤ)) →
        ∃ n : ℤ, EReturns p e (eHash prof e map u0 u1) (n • g) := by
    intro c p M l _ e map hc he hv hM hmap
    haveI := hv.curve
    obtain ⟨_, e', _, he', G, g, hG, hg, hcl⟩ := C58_edwards _ hc
    change c = _ at he'
    rw [he, R.ok.injEq] at he'
    subst he'
    refine ⟨inferInstance, e, inferInstance, map, he, hM, G, g, hG, hg, fun prof u0 u1 h0 h1 hl => ?_⟩
    obtain ⟨A, P, hP, hPA⟩ := hmap u0 h0 fun k hk => (hl k hk).1
    obtain ⟨B, Q, hQ, hQB⟩ := hmap u1 h1 fun k hk => (hl k hk).2
    obtain ⟨S, hS, hSd⟩ := (C36_group_law p e P Q A B hPA hQB).1
    unfold eHash
    simp only [hP, hQ, hS, R.ok_bind]
    exact hcl prof S _ hSd
  have lift : ∀ {x : R Edwards.Ell2} {M : Edwards.Ell2}, x = R.ok M → (do return (← x).map) = R.ok M.map := by
    rintro _ M rfl; rfl
  rw [c25519_p_eq, c448_p_eq]
  rw [List.forall_mem_cons, List.forall_mem_cons]
  obtain ⟨M, hM, h⟩ := C44_edwards25519
  obtain ⟨M', hM', h'⟩ := C44_edwards448_partial
  refine ⟨key _ _ map25519 _ _ M.map (by rw [edwardsList, c25519_p_eq]; simp) edwards25519_eq edwards25519_valid
      (by have := lift hM; unfold map25519; simpa only [bind_assoc] using this) (fun u hu _ => ?_),
    key _ _ map448 _ _ M'.map (by rw [edwardsList, c448_p_eq]; simp) edwards448_eq edwards448_valid
      (by have := lift hM'; unfold map448; simpa only [bind_assoc] using this) (fun u hu hk => ?_), by simp⟩
  · obtain ⟨A, -, -, -, -, hr⟩ := h u hu; exact ⟨A, hr⟩
  · simp only [List.forall_mem_cons, List.not_mem_nil, Int.cast_zero, Int.cast_one, Int.cast_neg] at hk
    obtain ⟨A, -, -, -, -, hr⟩ := h' u hu hk.1 hk.2.1 hk.2.2.1; exact ⟨A, hr⟩

/-- The inputs range over the whole field, and the results are not all the identity: the hash of `(1, 2)` on P256. -/
example : Canon p256_p ⟨1, ⟨p256_p⟩⟩ ∧ Canon p256_p ⟨2, ⟨p256_p⟩⟩ ∧
    (do
      let m ← Weierstrass.SSWU.new p256 (← p256.f.fromPrim (-10))
      let P ← wHash .debug p256 m.map ⟨1, ⟨p256_p⟩⟩ ⟨2, ⟨p256_p⟩⟩
      P.eq (← p256.identity)) = R.ok false := by
  refine ⟨⟨rfl, by decide +kernel, by decide +kernel⟩, ⟨rfl, by decide +kernel, by decide +kernel⟩, by decide +kernel⟩

/-! ## C66 -/

/-- The Weierstrass curves with field size and number of bytes of a coordinate. -/
def wSizes : List (R Weierstrass.Curve × ℕ × ℕ) :=
  [(P256, 2 ^ 256 - 2 ^ 224 + 2 ^ 192 + 2 ^ 96 - 1, 32), (P384, 2 ^ 384 - 2 ^ 128 - 2 ^ 96 + 2 ^ 32 - 1, 48),
   (P521, 2 ^ 521 - 1, 66), (SECP256K1, 2 ^ 256 - 2 ^ 32 - 977, 32), (SECP256K1_3ISO, 2 ^ 256 - 2 ^ 32 - 977, 32),
   (BLS12381G1, blsP, 48), (BLS12381G1_11ISO, blsP, 48)]

/-- C66, Weierstrass: on every named curve, a point other than the identity is encoded in `n + 1` bytes (compressed) or
`2 n + 1` bytes, decoding gives back an equal point, two points have the same encoding in one format exactly when they
are equal, and a byte string that decodes is the encoding of the decoded point. Partial: the identity is encoded as `04 00…00` or
`02 00…00`, which do not decode to it, see `C66_identity_refuted`. -/
theorem _root_.Redox.Props.C66_weierstrass_partial : ∀ t ∈ wSizes, ∃ (_ : Fact t.2.1.Prime) (e : Weierstrass.Curve),
    t.1 = R.ok e ∧
      (∀ P A, WDenotes t.2.1 e P A → A ≠ 0 → ∀ c, ∃ bs Q, P.encode c = R.ok bs ∧
        bs.length = (if c then t.2.2 + 1 else 2 * t.2.2 + 1) ∧ e.decode bs = R.ok (.ok Q) ∧ WDenotes t.2.1 e Q A ∧
        P.eq Q = R.ok true) ∧
      (∀ P Q A B, WDenotes t.2.1 e P A → WDenotes t.2.1 e Q B → A ≠ 0 → B ≠ 0 → ∀ c, P.encode c = Q.encode c ↔ A = B) ∧
      (∀ bs P, e.decode bs = R.ok (.ok P) → P.encode (bs.length == t.2.2 + 1) = R.ok bs ∧ ∃ A, WDenotes t.2.1 e P A) := by
  have key : ∀ (cu : R Weierstrass.Curve) (p n : ℕ) [Fact p.Prime] (e : Weierstrass.Curve), cu = R.ok e → WValid p e →
      p % 4 = 3 ∨ p % 8 = 5 → e.f.sizeBytes = n → ∃ (_ : Fact p.Prime) (e : Weierstrass.Curve),
    cu = R.ok e ∧
      (∀ P A, WDenotes p e P A → A ≠ 0 → ∀ c, ∃ bs Q, P.encode c = R.ok bs ∧
        bs.length = (if c then n + 1 else 2 * n + 1) ∧ e.decode bs = R.ok (.ok Q) ∧ WDenotes p e Q A ∧
        P.eq Q = R.ok true) ∧
      (∀ P Q A B, WDenotes p e P A → WDenotes p e Q B → A ≠ 0 → B ≠ 0 → ∀ c, P.encode c = Q.encode c ↔ A = B) ∧
      (∀ bs P, e.decode bs = R.ok (.ok P) → P.encode (bs.length == n + 1) = R.ok bs ∧ ∃ A, WDenotes p e P A) := by
    rintro cu p n _ e hc hv hs rfl
    refine ⟨inferInstance, e, hc, fun P A hP hA c => ?_, fun P Q A B hP hQ hA hB c => ?_, fun bs P h => ⟨?_, ?_⟩⟩
    · obtain ⟨bs, Q, h1, h2, h3, h4, h5, -⟩ := C28_roundtrip_partial p e hv.curve hs P A hP hA c
      exact ⟨bs, Q, h1, h2, h3, h4, h5⟩
    · obtain ⟨h1, h2⟩ := C30_encode p e hv.curve c P Q A B hP hQ
      exact ⟨h2 hA hB, h1⟩
    · exact C30_decode p e hv.curve hs hv.complete bs P h
    · obtain ⟨-, -, A, -, hA⟩ := (C29_decode_partial p e hv.curve bs).1 P h
      exact ⟨A, hA⟩
  rw [wSizes, p256_p_eq, p384_p_eq, p521_p_eq, secp256k1_p_eq, bls_p_eq]
  simp only [List.forall_mem_cons]
  exact ⟨key _ _ _ _ p256_eq p256_valid (by decide +kernel) (by decide +kernel),
    key _ _ _ _ p384_eq p384_valid (by decide +kernel) (by decide +kernel),
    key _ _ _ _ p521_eq p521_valid (by decide +kernel) (by decide +kernel),
    key _ _ _ _ secp256k1_eq secp256k1_valid (by decide +kernel) (by decide +kernel),
    key _ _ _ _ secp256k1_3iso_eq secp256k1_3iso_valid (by decide +kernel) (by decide +kernel),
    key _ _ _ _ bls12381g1_eq bls12381g1_valid (by decide +kernel) (by decide +kernel),
    key _ _ _ _ bls12381g1_11iso_eq bls12381g1_11iso_valid (by decide +kernel) (by decide +kernel), by simp⟩

/-- C66 is refuted at the identity of every named Weierstrass curve: it is encoded as `04 00…00`, which `decode` panics on,
or as `02 00…00`, which does not decode to it. -/
theorem _root_.Redox.Props.C66_identity_refuted : ∀ t ∈ wSizes, ∃ e I, t.1 = R.ok e ∧ e.identity = R.ok I ∧
    I.encode false = R.ok (4 :: List.replicate (2 * t.2.2) 0) ∧
    e.decode (4 :: List.replicate (2 * t.2.2) 0) = R.panic .notValidPoint ∧
    I.encode true = R.ok (2 :: List.replicate t.2.2 0) ∧
    ∀ Q, e.decode (2 :: List.replicate t.2.2 0) = R.ok (.ok Q) → I.eq Q = R.ok false := by
  have key : ∀ (cu : R Weierstrass.Curve) (p n : ℕ) [Fact p.Prime] (e : Weierstrass.Curve), cu = R.ok e → WValid p e →
      p % 4 = 3 ∨ p % 8 = 5 → e.f.sizeBytes = n → e.b.isZero = false → ∃ e I, cu = R.ok e ∧ e.identity = R.ok I ∧
    I.encode false = R.ok (4 :: List.replicate (2 * n) 0) ∧
    e.decode (4 :: List.replicate (2 * n) 0) = R.panic .notValidPoint ∧
    I.encode true = R.ok (2 :: List.replicate n 0) ∧
    ∀ Q, e.decode (2 :: List.replicate n 0) = R.ok (.ok Q) → I.eq Q = R.ok false := by
    rintro cu p n _ e hc hv hs rfl hb
    have hb' : val p e.b ≠ 0 := by
      intro h0
      have := hv.curve.canon_b.eq_el
      rw [this, h0] at hb
      simp at hb
    obtain ⟨I, h1, h2, h3, h4, h5, h6, -⟩ := C28_refuted_identity p e hv.curve hs hb'
    refine ⟨e, I, hc, h1, h2, h4, h3, fun Q hQ => ?_⟩
    by_cases hsq : IsSquare (val p e.b)
    · obtain ⟨Q', hQ', -, h⟩ := h6 hsq
      rw [hQ, R.ok.injEq, Except.ok.injEq] at hQ'
      subst hQ'; exact h
    · rw [h5 hsq] at hQ; cases hQ
  rw [wSizes]
  simp only [List.forall_mem_cons]
  exact ⟨key _ _ _ _ p256_eq p256_valid (by decide +kernel) (by decide +kernel) (by decide +kernel),
    key _ _ _ _ p384_eq p384_valid (by decide +kernel) (by decide +kernel) (by decide +kernel),
    key _ _ _ _ p521_eq p521_valid (by decide +kernel) (by decide +kernel) (by decide +kernel),
    key _ _ _ _ secp256k1_eq secp256k1_valid (by decide +kernel) (by decide +kernel) (by decide +kernel),
    key _ _ _ _ secp256k1_3iso_eq secp256k1_3iso_valid (by decide +kernel) (by decide +kernel) (by decide +kernel),
    key _ _ _ _ bls12381g1_eq bls12381g1_valid (by decide +kernel) (by decide +kernel) (by decide +kernel),
    key _ _ _ _ bls12381g1_11iso_eq bls12381g1_11iso_valid (by decide +kernel) (by decide +kernel) (by decide +kernel),
    by simp⟩

/-- The Edwards curves with field size and length of an encoding. -/
def eSizes : List (R Edwards.Curve × ℕ × ℕ) := [(EDWARDS25519, 2 ^ 255 - 19, 32), (EDWARDS448, 2 ^ 448 - 2 ^ 224 - 1, 57)]

/-- C66, Edwards (RFC 8032): on both curves every point is encoded in 32 or 57 bytes, decoding gives back an equal point, two
points have the same encoding exactly when they are equal, and a byte string that decodes is the encoding of the decoded
point. -/
theorem _root_.Redox.Props.C66_edwards : ∀ t ∈ eSizes, ∃ (_ : Fact t.2.1.Prime) (e : Edwards.Curve),
    t.1 = R.ok e ∧
      (∀ P A, EDenotes t.2.1 e P A → ∀ c, ∃ bs Q, P.encode c = R.ok bs ∧ bs.length = t.2.2 ∧
        Ed.leValue bs = A.y.val + 2 ^ (8 * t.2.2 - 1) * (A.x.val % 2) ∧ e.decode bs = R.ok (.ok Q) ∧ EDenotes t.2.1 e Q A ∧
        P.eq Q = R.ok true) ∧
      (∀ P Q A B, EDenotes t.2.1 e P A → EDenotes t.2.1 e Q B → ∀ c c', P.encode c = Q.encode c' ↔ A = B) ∧
      (∀ bs P, e.decode bs = R.ok (.ok P) → (∀ c, P.encode c = R.ok bs) ∧ ∃ A, EDenotes t.2.1 e P A) := by
  have key : ∀ (cu : R Edwards.Curve) (p n : ℕ) [Fact p.Prime] (e : Edwards.Curve), cu = R.ok e → EValid p e →
      p % 4 = 3 ∨ p % 8 = 5 → (Big.bits p + 8) / 8 = n → ∃ (_ : Fact p.Prime) (e : Edwards.Curve),
    cu = R.ok e ∧
      (∀ P A, EDenotes p e P A → ∀ c, ∃ bs Q, P.encode c = R.ok bs ∧ bs.length = n ∧
        Ed.leValue bs = A.y.val + 2 ^ (8 * n - 1) * (A.x.val % 2) ∧ e.decode bs = R.ok (.ok Q) ∧ EDenotes p e Q A ∧
        P.eq Q = R.ok true) ∧
      (∀ P Q A B, EDenotes p e P A → EDenotes p e Q B → ∀ c c', P.encode c = Q.encode c' ↔ A = B) ∧
      (∀ bs P, e.decode bs = R.ok (.ok P) → (∀ c, P.encode c = R.ok bs) ∧ ∃ A, EDenotes p e P A) := by
    rintro cu p n _ e hc hv hs rfl
    haveI := hv.curve
    refine ⟨inferInstance, e, hc, fun P A hP c => ?_, fun P Q A B hP hQ c c' => C39_injective p e hs P Q A B hP hQ c c',
      fun bs P h => ⟨fun c => C39_canonical p e hs bs P h c, ((C40_decode_partial p e hv.curve.params bs).1 P h).2⟩⟩
    obtain ⟨bs, Q, h1, h2, h3, h4, h5, h6, -⟩ := C39_roundtrip p e hs P A hP c
    exact ⟨bs, Q, h1, h2, h2 ▸ h3, h4, h5, h6⟩
  rw [eSizes, c25519_p_eq, c448_p_eq]
  simp only [List.forall_mem_cons]
  exact ⟨key _ _ _ _ edwards25519_eq edwards25519_valid (by decide +kernel) (by decide +kernel),
    key _ _ _ _ edwards448_eq edwards448_valid (by decide +kernel) (by decide +kernel), by simp⟩

/-- The Montgomery curves with field size and number of bytes of a coordinate. -/
def mSizes : List (R Montgomery.Curve × ℕ × ℕ) := [(CURVE25519, 2 ^ 255 - 19, 32), (CURVE448, 2 ^ 448 - 2 ^ 224 - 1, 56)]

/-- C66, Montgomery: on both curves, a point other than the identity is encoded in `n + 1` bytes (compressed) or `2 n + 1`
bytes, decoding gives back an equal point, and two such points have the same encoding in one format exactly when they are
equal. Partial: the identity is encoded as the point `(0, 0)`, see `C66_montgomery_identity_refuted`. -/
theorem _root_.Redox.Props.C66_montgomery_partial : ∀ t ∈ mSizes, ∃ (_ : Fact t.2.1.Prime) (e : Montgomery.Curve),
    t.1 = R.ok e ∧
      (∀ P A, MDenotes t.2.1 e P A → A ≠ 0 → ∀ c, ∃ bs Q, P.encode c = R.ok bs ∧
        bs.length = (if c then t.2.2 + 1 else 2 * t.2.2 + 1) ∧ e.decode bs = R.ok (.ok Q) ∧ MDenotes t.2.1 e Q A ∧
        P.eq Q = R.ok true) ∧
      (∀ P Q A B, MDenotes t.2.1 e P A → MDenotes t.2.1 e Q B → A ≠ 0 → B ≠ 0 → ∀ c, P.encode c = Q.encode c ↔ A = B) := by
  have key : ∀ (cu : R Montgomery.Curve) (p n : ℕ) [Fact p.Prime] (e : Montgomery.Curve), cu = R.ok e → MValid p e →
      p % 4 = 3 ∨ p % 8 = 5 → e.f.sizeBytes = n → ∃ (_ : Fact p.Prime) (e : Montgomery.Curve),
    cu = R.ok e ∧
      (∀ P A, MDenotes p e P A → A ≠ 0 → ∀ c, ∃ bs Q, P.encode c = R.ok bs ∧
        bs.length = (if c then n + 1 else 2 * n + 1) ∧ e.decode bs = R.ok (.ok Q) ∧ MDenotes p e Q A ∧
        P.eq Q = R.ok true) ∧
      (∀ P Q A B, MDenotes p e P A → MDenotes p e Q B → A ≠ 0 → B ≠ 0 → ∀ c, P.encode c = Q.encode c ↔ A = B) := by
    rintro cu p n _ e hc hv hs rfl
    refine ⟨inferInstance, e, hc, fun P A hP hA c => ?_, fun P Q A B hP hQ hA hB c => ?_⟩
    · obtain ⟨bs, Q, h1, h2, h3, h4, h5, -⟩ := C34_roundtrip_partial p e hv.curve hv.b_one hs P A hP hA c
      exact ⟨bs, Q, h1, h2, h3, h4, h5⟩
    · obtain ⟨h1, h2⟩ := C34_canonical_partial p e hv.curve c P Q A B hP hQ
      exact ⟨h2 hA hB, h1⟩
  rw [mSizes, c25519_p_eq, c448_p_eq]
  simp only [List.forall_mem_cons]
  exact ⟨key _ _ _ _ curve25519_eq curve25519_valid (by decide +kernel) (by decide +kernel),
    key _ _ _ _ curve448_eq curve448_valid (by decide +kernel) (by decide +kernel), by simp⟩

/-- C66 is refuted at the identity of both named Montgomery curves: it decodes to a different point, `(0, 0)`. -/
theorem _root_.Redox.Props.C66_montgomery_identity_refuted : ∀ t ∈ mSizes, ∀ c : Bool, ∃ I bs T, (do
    let e ← t.1
    e.identity) = R.ok I ∧ I.encode c = R.ok bs ∧ (do
    let e ← t.1
    e.decode bs) = R.ok (.ok T) ∧ I.eq T = R.ok false := by
  have key : ∀ (cu : R Montgomery.Curve) (p : ℕ) [Fact p.Prime] (e : Montgomery.Curve), cu = R.ok e → MValid p e →
      p % 4 = 3 ∨ p % 8 = 5 → ∀ c : Bool, ∃ I bs T, (do
    let e ← cu
    e.identity) = R.ok I ∧ I.encode c = R.ok bs ∧ (do
    let e ← cu
    e.decode bs) = R.ok (.ok T) ∧ I.eq T = R.ok false := by
    intro cu p _ e hc hv hs c
    obtain ⟨I, T, bs, h1, -, h3, h4, -, h6⟩ := C34_refuted_identity p e hv.curve hs c
    exact ⟨I, bs, T, by rw [hc]; exact h1, h4, by rw [hc]; exact h6, h3⟩
  rw [mSizes]
  simp only [List.forall_mem_cons]
  exact ⟨key _ _ _ curve25519_eq curve25519_valid (by decide +kernel),
    key _ _ _ curve448_eq curve448_valid (by decide +kernel), by simp⟩

/-- C66 is refuted at the point `(0, 0)` of both named Montgomery curves: two different compressed strings decode to it. -/
theorem _root_.Redox.Props.C66_montgomery_malleable_refuted : ∀ t ∈ mSizes, ∃ T, (do
    let e ← t.1
    e.decode (2 :: List.replicate t.2.2 0)) = R.ok (.ok T) ∧ (do
    let e ← t.1
    e.decode (3 :: List.replicate t.2.2 0)) = R.ok (.ok T) := by
  rw [mSizes]
  simp only [List.forall_mem_cons]
  refine ⟨⟨⟨curve25519, ⟨⟨0, ⟨curve25519_p⟩⟩, ⟨0, ⟨curve25519_p⟩⟩, ⟨1, ⟨curve25519_p⟩⟩⟩⟩, ?_⟩,
    ⟨⟨curve448, ⟨⟨0, ⟨curve448_p⟩⟩, ⟨0, ⟨curve448_p⟩⟩, ⟨1, ⟨curve448_p⟩⟩⟩⟩, ?_⟩, by simp⟩ <;>
  exact ⟨by decide +kernel, by decide +kernel⟩

end Redox.Props.Inst
