import Verif.Instances.Isogenies
import Verif.Props.MapProps

/-!
# C45, C46: the isogenies to secp256k1 and BLS12-381 G1, and the maps built on them
-/

set_option linter.unusedSectionVars false
set_option maxRecDepth 100000

namespace Redox.Props.Isog

open Spec Weierstrass WLink Inst

section
variable {p : ℕ} [Fact p.Prime] {m : IsoMap}

/-- The image under the isogeny exists. -/
theorem image_exists (h : IsoOK p m) (A : (wGroup p m.e0).Point) : ∃ B : (wGroup p m.e1).Point, IsoImage m A B := by
  rcases A with _ | ⟨x, y, hn⟩
  · exact ⟨0, rfl⟩
  · by_cases hk : InKernel p m x
    · exact ⟨.zero, hk⟩
    · obtain ⟨hn', -⟩ := Map.newPoint_some h.e1 (RLink.iso_curve h hk ((RCB.nonsingular_iff _ _ x y).1 hn).1)
      exact ⟨.some _ _ hn', hk, rfl, rfl⟩

/-- The image under the isogeny is unique. -/
theorem image_unique {A : (wGroup p m.e0).Point} {B B' : (wGroup p m.e1).Point} (h : IsoImage m A B) (h' : IsoImage m A B') :
    B = B' := by
  rcases A with _ | ⟨x, y, hn⟩
  · rw [show B = 0 from h, show B' = 0 from h']
  · rcases B with _ | ⟨u, v, hn1⟩ <;> rcases B' with _ | ⟨u', v', hn2⟩
    · rfl
    · exact absurd h h'.1
    · exact absurd h' h.1
    · obtain ⟨-, rfl, rfl⟩ := h
      obtain ⟨-, rfl, rfl⟩ := h'
      rfl

/-- `push` on normalised representatives of points outside the kernel. -/
theorem push_affine (h : IsoOK p m) {x y : ZMod p} {hn : (wGroup p m.e0).Nonsingular x y} (hk : ¬ InKernel p m x) :
    ∃ B, IsoImage m (.some x y hn) B ∧ WReturns p m.e1 (m.push (pt m.e0 x y 1)) B := by
  obtain ⟨hn', hret⟩ := Map.newPoint_some h.e1 (RLink.iso_curve h hk ((RCB.nonsingular_iff _ _ x y).1 hn).1)
  exact ⟨.some _ _ hn', ⟨hk, rfl, rfl⟩, by rw [RLink.iso_push h]; exact hret⟩

/-- `push` on normalised representatives of points in the kernel: a panic. -/
theorem push_kernel (h : IsoOK p m) (hb : val p m.e1.b ≠ 0) {x y : ZMod p} (hx : polyVal p m.x_den x = 0)
    (hy : polyVal p m.y_den x = 0) (z : ZMod p) : m.push (pt m.e0 x y z) = R.panic .notValidPoint := by
  rw [RLink.iso_push h, hx, hy, div_zero, div_zero, mul_zero, WLink.newPoint_pt h.e1, if_neg]
  intro h0
  apply hb
  linear_combination -h0

/-- A representative with `z = 1`. -/
theorem affine_of_one {e : Curve} {P : Point} {A : (wGroup p e).Point} (hP : WDenotes p e P A) (hz : val p P.c.z = 1) :
    ∃ x y hn, A = .some x y hn ∧ P = pt e x y 1 := by
  obtain ⟨x, y, z, rfl, hr⟩ := denotes_iff.1 hP
  have hz' : z = 1 := by simpa [pt] using hz
  subst hz'
  rcases A with _ | ⟨u, v, hn⟩
  · exact absurd hr.2.2 one_ne_zero
  · obtain ⟨-, e1, e2⟩ := hr
    rw [mul_one] at e1 e2
    subst e1 e2
    exact ⟨_, _, hn, rfl, rfl⟩

/-- `normalize` on a point other than the identity. -/
theorem normalize_denotes {e : Curve} (he : WCurve p e) {P : Point} {A : (wGroup p e).Point} (hP : WDenotes p e P A)
    (hA : A ≠ 0) : ∃ N, P.normalize = R.ok N ∧ WDenotes p e N A ∧ val p N.c.z = 1 := by
  haveI : Fact (2 < p) := ⟨two_lt_of he⟩
  obtain ⟨x, y, z, rfl, hr⟩ := denotes_iff.1 hP
  refine ⟨_, normalize_pt he x y z, ?_, ?_⟩
  · rcases A with _ | ⟨u, v, hn⟩
    · exact absurd rfl hA
    · obtain ⟨hz, rfl, rfl⟩ := hr
      refine denotes_iff.2 ⟨_, _, _, rfl, one_ne_zero, ?_, ?_⟩ <;> field_simp
  · simp [pt]

end

section
variable (p : ℕ) [Fact p.Prime] (m : IsoMap)

/-- `SSWUAB0::new` on the codomain of an isogeny. -/
theorem ab0_new (hab : m.e1.a.isZero ≠ m.e1.b.isZero) (z : FpElt) (M : SSWUAB0)
    (hM : SSWUAB0.new m.e1 z m.toIsogeny = R.ok M) : ∃ s, SSWU.new m.e0 z = R.ok s ∧ M = ⟨m.toIsogeny, s⟩ := by
  have hv : SSWUAB0.verify m.e1 m.toIsogeny = R.ok true := by
    simp only [SSWUAB0.verify, IsoMap.toIsogeny, R.ok_bind, beq_self_eq_true, Bool.true_and, R.pure_eq]
    generalize m.e1.a.isZero = a at *
    generalize m.e1.b.isZero = b at *
    revert hab
    revert a b
    decide
  rw [SSWUAB0.new, hv, R.ok_bind] at hM
  simp only [Bool.not_true, Bool.false_eq_true, if_false, IsoMap.toIsogeny, R.ok_bind] at hM
  obtain ⟨s, hs, hM'⟩ := R.bind_eq_ok.1 hM
  exact ⟨s, hs, by simpa [IsoMap.toIsogeny] using hM'.symm⟩

/-- The map through the isogeny, on inputs whose simplified SWU abscissa is not in the kernel. -/
theorem ab0_map (h : IsoOK p m) (hs : p % 4 = 3 ∨ p % 8 = 5) (z u : FpElt) (hz : Canon p z) (hu : Canon p u)
    {s : SSWU} (hM : SSWU.new m.e0 z = R.ok s)
    (hk : ¬ InKernel p m (sswuX (val p m.e0.a) (val p m.e0.b) (val p z) (val p u))) :
    ∃ y hn B, IsoImage m (.some (sswuX (val p m.e0.a) (val p m.e0.b) (val p z) (val p u)) y hn) B ∧
      (y = 0 ∨ y.val % 2 = (val p u).val % 2) ∧ WReturns p m.e1 (SSWUAB0.map ⟨m.toIsogeny, s⟩ u) B := by
  obtain ⟨y, hr, hmap, hpar⟩ := Map.sswu_map_pt p h.e0 hs z u hz hu s hM
  obtain ⟨hn, -⟩ := Map.newPoint_some h.e0 hr
  obtain ⟨B, hB, hret⟩ := push_affine (hn := hn) h hk
  exact ⟨y, hn, B, hB, hpar, by rw [SSWUAB0.map, hmap]; exact hret⟩

end

/-! ## C45 -/

/-- No point of the 3-isogenous curve is in the kernel of the isogeny to secp256k1. -/
theorem secp_kernel {x y : ZMod secp256k1_p} (hn : (wGroup secp256k1_p isoSecp256k1.e0).Nonsingular x y) :
    ¬ InKernel secp256k1_p isoSecp256k1 x := by
  rw [isoSecp256k1_inKernel]
  rintro ⟨r, hr, rfl⟩
  simp only [isoSecp256k1_kernel, List.mem_singleton] at hr
  have hc := ((RCB.nonsingular_iff _ _ _ y).1 hn).1
  have := NoRoot.not_isSquare_of_pow (p := secp256k1_p) ((r ^ 3 + isoSecp256k1.e0.a.n.toNat * r + isoSecp256k1.e0.b.n.toNat) % secp256k1_p)
    (by subst hr; decide +kernel) (by decide +kernel)
  apply this
  rw [ZMod.natCast_mod]
  refine ⟨y, ?_⟩
  rw [← pow_two, hc, RLink.val_toNat isoSecp256k1_ok.e0.canon_a, RLink.val_toNat isoSecp256k1_ok.e0.canon_b]
  push_cast
  rfl

/-- C45: `get_isogeny_secp256k1()` succeeds; its curves are `SECP256K1_3ISO` and `SECP256K1` and its rational functions map the
first to the second. -/
theorem _root_.Redox.Props.C45_get : ∃ m, get_isogeny_secp256k1 = R.ok m ∧ SECP256K1_3ISO = R.ok m.e0 ∧
    SECP256K1 = R.ok m.e1 ∧ IsoOK secp256k1_p m :=
  ⟨_, isoSecp256k1_eq, secp256k1_3iso_eq, secp256k1_eq, isoSecp256k1_ok⟩

/-- C45, `push`: for every affine point of `SECP256K1_3ISO` given by its normalised representative, as `new_point` returns,
`push` does not panic and returns the image of the point. Partial: for other representatives and for the identity see
`C45_refuted_identity` and `C45_refuted_projective`. -/
theorem _root_.Redox.Props.C45_push_partial (m : IsoMap) (hm : get_isogeny_secp256k1 = R.ok m) (P : Point)
    (A : (wGroup secp256k1_p m.e0).Point) (hP : WDenotes secp256k1_p m.e0 P A) (hz : val secp256k1_p P.c.z = 1) :
    ∃ B, IsoImage m A B ∧ B ≠ 0 ∧ WReturns secp256k1_p m.e1 (m.push P) B := by
  rw [isoSecp256k1_eq, R.ok.injEq] at hm
  subst hm
  obtain ⟨x, y, hn, rfl, rfl⟩ := affine_of_one hP hz
  obtain ⟨B, hB, hret⟩ := push_affine isoSecp256k1_ok (hn := hn) (secp_kernel hn)
  refine ⟨B, hB, ?_, hret⟩
  rintro rfl
  exact secp_kernel hn hB

/-- C45, `push` after `normalize`: for every point other than the identity and every representative, normalising first makes
`push` return the image of the point. -/
theorem _root_.Redox.Props.C45_push_normalized (m : IsoMap) (hm : get_isogeny_secp256k1 = R.ok m) (P : Point)
    (A : (wGroup secp256k1_p m.e0).Point) (hP : WDenotes secp256k1_p m.e0 P A) (hA : A ≠ 0) :
    ∃ B, IsoImage m A B ∧ B ≠ 0 ∧ WReturns secp256k1_p m.e1 (do m.push (← P.normalize)) B := by
  have h0 : IsoOK secp256k1_p m := by rw [isoSecp256k1_eq, R.ok.injEq] at hm; subst hm; exact isoSecp256k1_ok
  obtain ⟨N, hN, hNd, hz⟩ := normalize_denotes h0.e0 hP hA
  rw [hN, R.ok_bind]
  exact C45_push_partial m hm N A hNd hz

/-- C45 is refuted at the identity: `push(identity())` panics. -/
theorem _root_.Redox.Props.C45_refuted_identity : ∃ m O, get_isogeny_secp256k1 = R.ok m ∧ m.e0.identity = R.ok O ∧
    WDenotes secp256k1_p m.e0 O 0 ∧ m.push O = R.panic .notValidPoint := by
  obtain ⟨O, hO, hd, -⟩ := C22_identity secp256k1_p isoSecp256k1.e0 isoSecp256k1_ok.e0
  refine ⟨_, O, isoSecp256k1_eq, hO, hd, ?_⟩
  have : (do isoSecp256k1.push (← isoSecp256k1.e0.identity)) = R.panic .notValidPoint := by decide +kernel
  rwa [hO, R.ok_bind] at this

/-- C45 is refuted for representatives that are not normalised: `push(G + G)` panics, where `G` is the generator. -/
theorem _root_.Redox.Props.C45_refuted_projective : ∃ m G S A, get_isogeny_secp256k1 = R.ok m ∧ m.e0.getGenerator = R.ok G ∧
    G.add G = R.ok S ∧ WDenotes secp256k1_p m.e0 S A ∧ m.push S = R.panic .notValidPoint := by
  obtain ⟨G, A, hG, hd, -⟩ := secp256k1_3iso_valid.generator
  obtain ⟨S, hS, hSd⟩ := (C23_group_law secp256k1_p isoSecp256k1.e0 isoSecp256k1_ok.e0 secp256k1_3iso_valid.complete G G A A hd hd).1
  refine ⟨_, G, S, _, isoSecp256k1_eq, hG, hS, hSd, ?_⟩
  have : (do
      let G ← isoSecp256k1.e0.getGenerator
      isoSecp256k1.push (← G.add G)) = R.panic .notValidPoint := by decide +kernel
  change secp256k1_3iso.getGenerator = _ at hG
  rwa [show isoSecp256k1.e0 = secp256k1_3iso from rfl, hG, R.ok_bind, hS, R.ok_bind] at this

/-- C45, the map: whenever `SSWUAB0::new` succeeds, `map` does not panic for any `u` and returns the image under the isogeny of the
point that RFC 9380's simplified SWU map prescribes on the 3-isogenous curve. -/
theorem _root_.Redox.Props.C45_map (m : IsoMap) (hm : get_isogeny_secp256k1 = R.ok m) (z u : FpElt) (hz : Canon secp256k1_p z)
    (hu : Canon secp256k1_p u) (M : SSWUAB0) (hM : SSWUAB0.new m.e1 z m.toIsogeny = R.ok M) :
    ∃ y hn B, IsoImage m (.some (sswuX (val secp256k1_p m.e0.a) (val secp256k1_p m.e0.b) (val secp256k1_p z) (val secp256k1_p u)) y hn) B ∧
      (y = 0 ∨ y.val % 2 = (val secp256k1_p u).val % 2) ∧ B ≠ 0 ∧ WReturns secp256k1_p m.e1 (M.map u) B := by
  rw [isoSecp256k1_eq, R.ok.injEq] at hm
  subst hm
  obtain ⟨s, hs, rfl⟩ := ab0_new isoSecp256k1 (by decide +kernel) z M hM
  have hs4 : secp256k1_p % 4 = 3 ∨ secp256k1_p % 8 = 5 := by decide +kernel
  obtain ⟨y, hr, -, -⟩ := Map.sswu_map_pt _ isoSecp256k1_ok.e0 hs4 z u hz hu s hs
  obtain ⟨hn, -⟩ := Map.newPoint_some isoSecp256k1_ok.e0 hr
  obtain ⟨y, hn, B, hB, hpar, hret⟩ := ab0_map _ _ isoSecp256k1_ok hs4 z u hz hu hs (secp_kernel hn)
  refine ⟨y, hn, B, hB, hpar, ?_, hret⟩
  rintro rfl
  exact secp_kernel hn hB

/-- The element `-11`. -/
def secpZ : FpElt := ⟨secp256k1_p - 11, ⟨secp256k1_p⟩⟩

/-- C45: `SSWUAB0::new` succeeds for `z = -11`, the value RFC 9380 prescribes. -/
theorem _root_.Redox.Props.C45_new : ∃ m z M, get_isogeny_secp256k1 = R.ok m ∧ m.e1.f.fromPrim (-11) = R.ok z ∧
    Canon secp256k1_p z ∧ SSWUAB0.new m.e1 z m.toIsogeny = R.ok M := by
  have h : ((SSWUAB0.new isoSecp256k1.e1 secpZ isoSecp256k1.toIsogeny).bind fun _ => R.ok true) = R.ok true := by
    decide +kernel
  obtain ⟨M, hM, -⟩ := R.bind_eq_ok.1 h
  exact ⟨_, secpZ, M, isoSecp256k1_eq, by decide +kernel, ⟨rfl, by decide +kernel, by decide +kernel⟩, hM⟩

/-! ## C46 -/

/-- C46: `get_isogeny_bls12381g1()` succeeds; its curves are `BLS12381G1_11ISO` and `BLS12381G1` and its rational functions map the
first to the second. -/
theorem _root_.Redox.Props.C46_get : ∃ m, get_isogeny_bls12381g1 = R.ok m ∧ BLS12381G1_11ISO = R.ok m.e0 ∧
    BLS12381G1 = R.ok m.e1 ∧ IsoOK bls12381g1_p m :=
  ⟨_, isoBls12381g1_eq, bls12381g1_11iso_eq, bls12381g1_eq, isoBls12381g1_ok⟩

/-- C46, `push`: for every affine point of `BLS12381G1_11ISO` outside the kernel given by its normalised representative, as
`new_point` returns, `push` does not panic and returns the image of the point. Partial: see `C46_refuted_push`,
`C46_refuted_identity` and `C46_refuted_projective`. -/
theorem _root_.Redox.Props.C46_push_partial (m : IsoMap) (hm : get_isogeny_bls12381g1 = R.ok m) (P : Point)
    (A : (wGroup bls12381g1_p m.e0).Point) (hP : WDenotes bls12381g1_p m.e0 P A) (hz : val bls12381g1_p P.c.z = 1)
    (hk : ¬ IsoImage m A 0) : ∃ B, IsoImage m A B ∧ WReturns bls12381g1_p m.e1 (m.push P) B := by
  rw [isoBls12381g1_eq, R.ok.injEq] at hm
  subst hm
  obtain ⟨x, y, hn, rfl, rfl⟩ := affine_of_one hP hz
  exact push_affine isoBls12381g1_ok (hn := hn) hk

theorem bls_b : val bls12381g1_p isoBls12381g1.e1.b ≠ 0 := by
  rw [RLink.val_toNat isoBls12381g1_ok.e1.canon_b]
  intro h
  have := (ZMod.natCast_eq_zero_iff _ _).1 h
  revert this
  decide +kernel

/-- A point of the kernel. -/
def blsKx : FpElt := ⟨2077344747421819657086473418925078480898358265217674456436079722467637536216749299440611432676849905020722484031356, ⟨bls12381g1_p⟩⟩
def blsKy : FpElt := ⟨864739370173431256541490135500561859725318822539686417753397107695043273625955431515886911526288167244999522605888, ⟨bls12381g1_p⟩⟩

/-- C46 is refuted on the kernel: `new_point` accepts the points of the kernel, and `push` panics on every one of them. -/
theorem _root_.Redox.Props.C46_refuted_push (m : IsoMap) (hm : get_isogeny_bls12381g1 = R.ok m) :
    (∀ P A, WDenotes bls12381g1_p m.e0 P A → val bls12381g1_p P.c.z = 1 → IsoImage m A 0 → m.push P = R.panic .notValidPoint) ∧
    ∃ x y P A, m.e0.newPoint x y = R.ok P ∧ WDenotes bls12381g1_p m.e0 P A ∧ val bls12381g1_p P.c.z = 1 ∧ IsoImage m A 0 := by
  rw [isoBls12381g1_eq, R.ok.injEq] at hm
  subst hm
  refine ⟨fun P A hP hz hk => ?_, ?_⟩
  · obtain ⟨x, y, hn, rfl, rfl⟩ := affine_of_one hP hz
    obtain ⟨h1, h2⟩ := isoBls12381g1_both x hk
    exact push_kernel isoBls12381g1_ok bls_b h1 h2 1
  · obtain ⟨P, hP, -⟩ := R.bind_eq_ok.1 (show ((isoBls12381g1.e0.newPoint blsKx blsKy).bind fun _ => R.ok true) = R.ok true by
      decide +kernel)
    obtain ⟨x, hx⟩ := canon_iff.1 (show Canon bls12381g1_p blsKx from ⟨rfl, by decide +kernel, by decide +kernel⟩)
    obtain ⟨y, hy⟩ := canon_iff.1 (show Canon bls12381g1_p blsKy from ⟨rfl, by decide +kernel, by decide +kernel⟩)
    have hP' := hP
    rw [hx, hy, WLink.newPoint_pt isoBls12381g1_ok.e0] at hP'
    split_ifs at hP' with hc
    obtain ⟨hn, S, hS, hd⟩ := Map.newPoint_some isoBls12381g1_ok.e0 (x := x) (y := y) hc
    rw [← hx, ← hy, hP, R.ok.injEq] at hS
    subst hS
    refine ⟨_, _, P, _, hP, hd, ?_, ?_⟩
    · rw [R.ok.injEq] at hP'
      rw [← hP']; simp [pt]
    · refine (isoBls12381g1_inKernel x).2 ⟨blsKx.n.toNat, by decide +kernel, ?_⟩
      have : val bls12381g1_p blsKx = x := by rw [hx, val_el]
      rw [← this]
      exact RLink.val_toNat (p := bls12381g1_p) (c := blsKx) ⟨rfl, by decide +kernel, by decide +kernel⟩

/-- C46, `push` after `normalize`: for every point outside the kernel and every representative. -/
theorem _root_.Redox.Props.C46_push_normalized_partial (m : IsoMap) (hm : get_isogeny_bls12381g1 = R.ok m) (P : Point)
    (A : (wGroup bls12381g1_p m.e0).Point) (hP : WDenotes bls12381g1_p m.e0 P A) (hk : ¬ IsoImage m A 0) :
    ∃ B, IsoImage m A B ∧ WReturns bls12381g1_p m.e1 (do m.push (← P.normalize)) B := by
  have h0 : IsoOK bls12381g1_p m := by rw [isoBls12381g1_eq, R.ok.injEq] at hm; subst hm; exact isoBls12381g1_ok
  obtain ⟨N, hN, hNd, hz⟩ := normalize_denotes h0.e0 hP (by rintro rfl; exact hk rfl)
  rw [hN, R.ok_bind]
  exact C46_push_partial m hm N A hNd hz hk

/-- C46 is refuted at the identity: `push(identity())` panics. -/
theorem _root_.Redox.Props.C46_refuted_identity : ∃ m O, get_isogeny_bls12381g1 = R.ok m ∧ m.e0.identity = R.ok O ∧
    WDenotes bls12381g1_p m.e0 O 0 ∧ m.push O = R.panic .notValidPoint := by
  obtain ⟨O, hO, hd, -⟩ := C22_identity bls12381g1_p isoBls12381g1.e0 isoBls12381g1_ok.e0
  refine ⟨_, O, isoBls12381g1_eq, hO, hd, ?_⟩
  have : (do isoBls12381g1.push (← isoBls12381g1.e0.identity)) = R.panic .notValidPoint := by decide +kernel
  rwa [hO, R.ok_bind] at this

/-- C46 is refuted for representatives that are not normalised: `push(G + G)` panics, where `G` is the generator. -/
theorem _root_.Redox.Props.C46_refuted_projective : ∃ m G S A, get_isogeny_bls12381g1 = R.ok m ∧ m.e0.getGenerator = R.ok G ∧
    G.add G = R.ok S ∧ WDenotes bls12381g1_p m.e0 S A ∧ m.push S = R.panic .notValidPoint := by
  obtain ⟨G, A, hG, hd, -⟩ := bls12381g1_11iso_valid.generator
  obtain ⟨S, hS, hSd⟩ := (C23_group_law bls12381g1_p isoBls12381g1.e0 isoBls12381g1_ok.e0 bls12381g1_11iso_valid.complete G G A A hd hd).1
  refine ⟨_, G, S, _, isoBls12381g1_eq, hG, hS, hSd, ?_⟩
  have : (do
      let G ← isoBls12381g1.e0.getGenerator
      isoBls12381g1.push (← G.add G)) = R.panic .notValidPoint := by decide +kernel
  change bls12381g1_11iso.getGenerator = _ at hG
  rwa [show isoBls12381g1.e0 = bls12381g1_11iso from rfl, hG, R.ok_bind, hS, R.ok_bind] at this

/-- The element `11`. -/
def blsZ : FpElt := ⟨11, ⟨bls12381g1_p⟩⟩

/-- C46: `SSWUAB0::new` succeeds for `z = 11`, the value RFC 9380 prescribes. -/
theorem _root_.Redox.Props.C46_new : ∃ m z M, get_isogeny_bls12381g1 = R.ok m ∧ m.e1.f.fromPrim 11 = R.ok z ∧
    Canon bls12381g1_p z ∧ SSWUAB0.new m.e1 z m.toIsogeny = R.ok M := by
  have h : ((SSWUAB0.new isoBls12381g1.e1 blsZ isoBls12381g1.toIsogeny).bind fun _ => R.ok true) = R.ok true := by
    decide +kernel
  obtain ⟨M, hM, -⟩ := R.bind_eq_ok.1 h
  exact ⟨_, blsZ, M, isoBls12381g1_eq, by decide +kernel, ⟨rfl, by decide +kernel, by decide +kernel⟩, hM⟩

theorem bls_sqrt : bls12381g1_p % 4 = 3 ∨ bls12381g1_p % 8 = 5 := by decide +kernel

/-- An input whose abscissa is in the kernel is one of the sixteen. -/
theorem bls_bad {s : SSWU} (hs : SSWU.new isoBls12381g1.e0 blsZ = R.ok s) {u : FpElt} (hu : Canon bls12381g1_p u)
    (hk : InKernel bls12381g1_p isoBls12381g1 (sswuX (val bls12381g1_p isoBls12381g1.e0.a) (val bls12381g1_p isoBls12381g1.e0.b)
      (val bls12381g1_p blsZ) (val bls12381g1_p u))) : u.n.toNat ∈ blsBadInputs := by
  have hz : Canon bls12381g1_p blsZ := ⟨rfl, by decide +kernel, by decide +kernel⟩
  have h0 := isoBls12381g1_ok.e0
  have hp : 2 < bls12381g1_p := by decide +kernel
  have hok := (C41_new bls12381g1_p isoBls12381g1.e0 h0 blsZ hz)
  simp only at hok
  have hok' := by_contra fun hh => absurd (hok.2 hh) (by rw [hs]; simp)
  obtain ⟨ha, hb, hz1, -, hsq⟩ := hok'
  have hz0 : val bls12381g1_p blsZ ≠ 0 := fun h => hz1 (h ▸ IsSquare.zero)
  obtain ⟨r, hr, hx⟩ := (isoBls12381g1_inKernel _).1 hk
  rw [← blsCerts_kernel, List.mem_map] at hr
  obtain ⟨c, hc, rfl⟩ := hr
  have hcok := List.all_eq_true.1 blsCerts_ok c hc
  have hus := List.all_eq_true.1 blsCerts_us c hc
  have e11 : val bls12381g1_p blsZ = ((11 : ℕ) : ZMod bls12381g1_p) := RLink.val_toNat hz
  rw [RLink.val_toNat h0.canon_a] at ha hsq hx
  rw [RLink.val_toNat h0.canon_b] at hb hsq hx
  rw [e11] at hz0 hsq hx
  obtain ⟨w, hw, hh⟩ := SswuCert.rcert hp hcok hz0 ha hb hsq _ hx
  have hw' := List.all_eq_true.1 hus w hw
  simp only [Bool.and_eq_true, List.contains_iff_mem, decide_eq_true_eq] at hw'
  obtain ⟨⟨m1, m2⟩, hlt⟩ := hw'
  rw [RLink.val_toNat hu] at hh
  have hn : u.n.toNat < bls12381g1_p := by have := hu.2.1; have := hu.2.2; omega
  rcases hh with hh | hh
  · have := (ZMod.natCast_eq_natCast_iff' _ _ _).1 hh
    rw [Nat.mod_eq_of_lt hn, Nat.mod_eq_of_lt hlt] at this
    rwa [this]
  · have hh' : ((u.n.toNat : ℕ) : ZMod bls12381g1_p) = ((bls12381g1_p - w : ℕ) : ZMod bls12381g1_p) := by
      rw [Nat.cast_sub hlt.le, ZMod.natCast_self, hh, zero_sub]
    have := (ZMod.natCast_eq_natCast_iff' _ _ _).1 hh'
    rcases Nat.eq_zero_or_pos w with rfl | hpos
    · rw [Nat.sub_zero, Nat.mod_self, Nat.mod_eq_of_lt hn] at this
      rwa [this]
    · rw [Nat.mod_eq_of_lt hn, Nat.mod_eq_of_lt (by omega)] at this
      rwa [this]

/-- C46, the map with `z = 11`: for every `u` other than sixteen values, `map` does not panic and returns the image under the
isogeny of the point that RFC 9380's simplified SWU map prescribes. Partial: see `C46_refuted_map`. -/
theorem _root_.Redox.Props.C46_map_partial (m : IsoMap) (hm : get_isogeny_bls12381g1 = R.ok m) (z : FpElt)
    (hz : m.e1.f.fromPrim 11 = R.ok z) (u : FpElt) (hu : Canon bls12381g1_p u) (M : SSWUAB0)
    (hM : SSWUAB0.new m.e1 z m.toIsogeny = R.ok M) (hbad : u.n.toNat ∉ blsBadInputs) :
    ∃ y hn B, IsoImage m (.some (sswuX (val bls12381g1_p m.e0.a) (val bls12381g1_p m.e0.b) (val bls12381g1_p z) (val bls12381g1_p u)) y hn) B ∧
      (y = 0 ∨ y.val % 2 = (val bls12381g1_p u).val % 2) ∧ B ≠ 0 ∧ WReturns bls12381g1_p m.e1 (M.map u) B := by
  rw [isoBls12381g1_eq, R.ok.injEq] at hm
  subst hm
  rw [show isoBls12381g1.e1.f.fromPrim 11 = R.ok blsZ by decide +kernel, R.ok.injEq] at hz
  subst hz
  obtain ⟨s, hs, rfl⟩ := ab0_new isoBls12381g1 (by decide +kernel) blsZ M hM
  have hk := fun hk => hbad (bls_bad hs hu hk)
  obtain ⟨y, hn, B, hB, hpar, hret⟩ := ab0_map _ _ isoBls12381g1_ok bls_sqrt blsZ u
    ⟨rfl, by decide +kernel, by decide +kernel⟩ hu hs hk
  refine ⟨y, hn, B, hB, hpar, ?_, hret⟩
  rintro rfl
  exact hk hB

/-- C46 is refuted for the map with `z = 11`: there are exactly sixteen inputs for which it panics. -/
theorem _root_.Redox.Props.C46_refuted_map (m : IsoMap) (hm : get_isogeny_bls12381g1 = R.ok m) (z : FpElt)
    (hz : m.e1.f.fromPrim 11 = R.ok z) (M : SSWUAB0) (hM : SSWUAB0.new m.e1 z m.toIsogeny = R.ok M) :
    blsBadInputs.length = 16 ∧ blsBadInputs.Nodup ∧
    ∀ u, Canon bls12381g1_p u → (M.map u = R.panic .notValidPoint ↔ u.n.toNat ∈ blsBadInputs) := by
  refine ⟨by decide +kernel, by decide +kernel, fun u hu => ⟨fun h => ?_, fun h => ?_⟩⟩
  · by_contra hbad
    obtain ⟨-, -, B, -, -, -, S, hS, -⟩ := C46_map_partial m hm z hz u hu M hM hbad
    rw [h] at hS
    simp at hS
  · rw [isoBls12381g1_eq, R.ok.injEq] at hm
    subst hm
    rw [show isoBls12381g1.e1.f.fromPrim 11 = R.ok blsZ by decide +kernel, R.ok.injEq] at hz
    subst hz
    have hall : blsBadInputs.all (fun n => (do
        let M ← SSWUAB0.new isoBls12381g1.e1 blsZ isoBls12381g1.toIsogeny
        M.map ⟨n, ⟨bls12381g1_p⟩⟩) == R.panic .notValidPoint) = true := by decide +kernel
    have := List.all_eq_true.1 hall _ h
    rw [hM, R.ok_bind, beq_iff_eq] at this
    rw [← this]
    obtain ⟨n, f⟩ := u
    obtain ⟨rfl, h0, -⟩ := hu
    simp [Int.toNat_of_nonneg h0]

/-- The maps at a concrete input: no panic on `u = 1`, a panic on the first of the sixteen. -/
example : (do
      let M ← SSWUAB0.new isoBls12381g1.e1 blsZ isoBls12381g1.toIsogeny
      let P ← M.map ⟨1, ⟨bls12381g1_p⟩⟩
      return P.c.z.n) = R.ok 1 := by decide +kernel

example : (do
      let M ← SSWUAB0.new isoSecp256k1.e1 secpZ isoSecp256k1.toIsogeny
      let P ← M.map ⟨1, ⟨secp256k1_p⟩⟩
      return P.c.z.n) = R.ok 1 := by decide +kernel

/-- A normalised point: the generator of the 3-isogenous curve is pushed to a point of secp256k1. -/
example : (do
      let Q ← isoSecp256k1.push (← isoSecp256k1.e0.getGenerator)
      isoSecp256k1.e1.isOnCurve Q) = R.ok true := by decide +kernel

end Redox.Props.Isog
