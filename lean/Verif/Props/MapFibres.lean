import Verif.Math.Fibres
import Verif.Props.NamedMaps
import Verif.Props.IsoHomProps

/-!
# C71: how many field elements the maps to Weierstrass curves send to one point
-/

set_option maxRecDepth 100000

namespace Redox.Props.Map

open Spec Weierstrass WLink

section
variable {p : ℕ} [Fact p.Prime] {e : Curve}

theorem wDenotes_unique {P : Point} {A B : (wGroup p e).Point} (hA : WDenotes p e P A) (hB : WDenotes p e P B) : A = B := by
  classical
  have h1 := C27_eq p e P P A B hA hB
  rw [C27_eq p e P P A A hA hA, R.ok.injEq] at h1
  simpa using h1

theorem wReturns_unique {r : R Point} {A B : (wGroup p e).Point} (hA : WReturns p e r A) (hB : WReturns p e r B) : A = B := by
  obtain ⟨P, hP, hA⟩ := hA
  obtain ⟨Q, hQ, hB⟩ := hB
  rw [hP, R.ok.injEq] at hQ
  subst hQ
  exact wDenotes_unique hA hB

end

section
variable (p : ℕ) [Fact p.Prime] (e : Curve)

/-- The field elements that `map` sends to the point `A`. -/
def wPreimages (map : FpElt → R Point) (A : (wGroup p e).Point) : Set FpElt := {u | Canon p u ∧ WReturns p e (map u) A}

variable {p e}

/-- Transfer of a bound: the map has the abscissa `X u` and the parity rule. -/
theorem preimages_le (map : FpElt → R Point) (X : ZMod p → ZMod p)
    (h : ∀ u, Canon p u → ∃ y, ∃ hn : (wGroup p e).Nonsingular (X (val p u)) y,
      WReturns p e (map u) (.some _ y hn) ∧ (y = 0 ∨ y.val % 2 = (val p u).val % 2))
    {x y : ZMod p} (hn : (wGroup p e).Nonsingular x y) (hy : y ≠ 0) (n : ℕ∞)
    (hb : {u : ZMod p | u.val % 2 = y.val % 2 ∧ X u = x}.encard ≤ n) :
    (wPreimages p e map (.some x y hn)).encard ≤ n := by
  refine le_trans (Set.encard_le_encard_of_injOn (f := val p) ?_ ?_) hb
  · rintro u ⟨hu, hr⟩
    obtain ⟨y', hn', hr', hpar⟩ := h u hu
    have := wReturns_unique hr hr'
    rw [WeierstrassCurve.Affine.Point.some.injEq] at this
    obtain ⟨rfl, rfl⟩ := this
    exact ⟨(hpar.resolve_left hy).symm, rfl⟩
  · rintro u ⟨hu, -⟩ v ⟨hv, -⟩ huv
    obtain ⟨u', rfl⟩ := canon_iff.1 hu
    obtain ⟨v', rfl⟩ := canon_iff.1 hv
    simp only [val_el] at huv
    rw [huv]

/-- The same without the parity rule. -/
theorem preimages_le' (map : FpElt → R Point) (X : ZMod p → ZMod p)
    (h : ∀ u, Canon p u → ∃ y, ∃ hn : (wGroup p e).Nonsingular (X (val p u)) y,
      WReturns p e (map u) (.some _ y hn) ∧ (y = 0 ∨ y.val % 2 = (val p u).val % 2))
    {x y : ZMod p} (hn : (wGroup p e).Nonsingular x y) (n : ℕ∞) (hb : {u : ZMod p | X u = x}.encard ≤ n) :
    (wPreimages p e map (.some x y hn)).encard ≤ n := by
  refine le_trans (Set.encard_le_encard_of_injOn (f := val p) ?_ ?_) hb
  · rintro u ⟨hu, hr⟩
    obtain ⟨y', hn', hr', -⟩ := h u hu
    have := wReturns_unique hr hr'
    rw [WeierstrassCurve.Affine.Point.some.injEq] at this
    exact this.1.symm
  · rintro u ⟨hu, -⟩ v ⟨hv, -⟩ huv
    obtain ⟨u', rfl⟩ := canon_iff.1 hu
    obtain ⟨v', rfl⟩ := canon_iff.1 hv
    simp only [val_el] at huv
    rw [huv]

theorem root_rhs {x : ZMod p} (hn : (wGroup p e).Nonsingular x 0) : rhs (val p e.a) (val p e.b) x = 0 := by
  have := (WeierstrassCurve.Affine.equation_iff _ _).1 hn.1
  simp at this
  unfold rhs
  linear_combination -this

variable (p e)

/-- C71, simplified SWU: no input is sent to the point at infinity, and at most six inputs to any one affine point that is not
of order two; at most four unless the abscissa is `B/(ZA)`. -/
theorem _root_.Redox.Props.C71_sswu (he : WCurve p e) (hs : p % 4 = 3 ∨ p % 8 = 5) (z : FpElt) (hz : Canon p z)
    (m : SSWU) (hm : SSWU.new e z = R.ok m) :
    wPreimages p e m.map 0 = ∅ ∧
    ∀ x y (hn : (wGroup p e).Nonsingular x y), y ≠ 0 →
      (wPreimages p e m.map (.some x y hn)).encard ≤ 6 ∧
      (x ≠ val p e.b / (val p z * val p e.a) → (wPreimages p e m.map (.some x y hn)).encard ≤ 4) := by
  have : Fact (2 < p) := ⟨by have := he.prime.two_le; have := he.odd; omega⟩
  have hok : val p e.a ≠ 0 ∧ val p e.b ≠ 0 ∧ ¬ IsSquare (val p z) ∧ val p z ≠ -1 ∧
      IsSquare (rhs (val p e.a) (val p e.b) (val p e.b / (val p z * val p e.a))) := by
    by_contra h
    rw [(C41_new p e he z hz).2 h] at hm
    cases hm
  obtain ⟨ha, hb, hz', -, hsq⟩ := hok
  have hz0 : val p z ≠ 0 := fun h => hz' (h ▸ IsSquare.zero)
  have hmap := fun u hu => C41_map p e he hs z u hz hu m hm
  refine ⟨?_, fun x y hn hy => ?_⟩
  · rw [Set.eq_empty_iff_forall_notMem]
    rintro u ⟨hu, h0⟩
    obtain ⟨y, hn, h, -⟩ := hmap u hu
    exact WeierstrassCurve.Affine.Point.some_ne_zero hn (wReturns_unique h h0)
  · have hpar : ∀ y : ZMod p, y ≠ 0 → (-y).val % 2 ≠ y.val % 2 := fun y hy => by
      rw [neg_parity hy]; have := Nat.mod_two_eq_zero_or_one y.val; omega
    have hf := Fibres.sswu hpar (a := val p e.a) (b := val p e.b) (z := val p z) (x := x) (y.val % 2) ha hb hz0 hsq
    exact ⟨preimages_le m.map _ hmap hn hy 6 hf.1, fun hx => preimages_le m.map _ hmap hn hy 4 (hf.2 hx)⟩

/-- C71, simplified SWU at the points of order two: at most seven inputs are sent to any one of them, at most four unless the abscissa is
`B/(ZA)`. -/
theorem _root_.Redox.Props.C71_sswu_order_two (he : WCurve p e) (hs : p % 4 = 3 ∨ p % 8 = 5) (z : FpElt) (hz : Canon p z)
    (m : SSWU) (hm : SSWU.new e z = R.ok m) (x : ZMod p) (hn : (wGroup p e).Nonsingular x 0) :
    (wPreimages p e m.map (.some x 0 hn)).encard ≤ 7 ∧
    (x ≠ val p e.b / (val p z * val p e.a) → (wPreimages p e m.map (.some x 0 hn)).encard ≤ 4) := by
  have : Fact (2 < p) := ⟨by have := he.prime.two_le; have := he.odd; omega⟩
  have hok : val p e.a ≠ 0 ∧ val p e.b ≠ 0 ∧ ¬ IsSquare (val p z) ∧ val p z ≠ -1 ∧
      IsSquare (rhs (val p e.a) (val p e.b) (val p e.b / (val p z * val p e.a))) := by
    by_contra h
    rw [(C41_new p e he z hz).2 h] at hm
    cases hm
  obtain ⟨ha, hb, hz', -, hsq⟩ := hok
  have hz0 : val p z ≠ 0 := fun h => hz' (h ▸ IsSquare.zero)
  have hmap := fun u hu => C41_map p e he hs z u hz hu m hm
  have hpar : ∀ y : ZMod p, y ≠ 0 → (-y).val % 2 ≠ y.val % 2 := fun y hy => by
    rw [neg_parity hy]; have := Nat.mod_two_eq_zero_or_one y.val; omega
  have hf := Fibres.sswu_root hpar (a := val p e.a) (b := val p e.b) (z := val p z) (x := x) ha hb hz0 hsq (root_rhs hn) fun t ht => by
    have hid := MapId.sswu_id (b := val p e.b) ha (show t + t * t ≠ 0 by intro h; exact ht (by linear_combination h))
    have e1 : (-val p e.b / val p e.a) * (1 + 1 / (t ^ 2 + t)) = ((t + t * t)⁻¹ + 1) * (-val p e.b * (val p e.a)⁻¹) := by
      rw [show t ^ 2 + t = t + t * t by ring, div_eq_mul_inv, one_div]; ring
    rw [e1]
    unfold MapId.g at hid
    unfold rhs
    linear_combination hid
  exact ⟨preimages_le' m.map _ hmap hn 7 hf.1, fun hx => preimages_le' m.map _ hmap hn 4 (hf.2 hx)⟩

/-- C71, Shallue-van de Woestijne: no input is sent to the point at infinity, and at most eight inputs to any one affine point
that is not of order two; at most six unless the abscissa is `Z` or `-Z/2`. -/
theorem _root_.Redox.Props.C71_svdw (he : WCurve p e) (hs : p % 4 = 3 ∨ p % 8 = 5) (z : FpElt) (hz : Canon p z)
    (m : SVDW) (hm : SVDW.new e z = R.ok m) :
    wPreimages p e m.map 0 = ∅ ∧
    ∀ x y (hn : (wGroup p e).Nonsingular x y), y ≠ 0 →
      (wPreimages p e m.map (.some x y hn)).encard ≤ 8 ∧
      (x ≠ val p z → x ≠ -val p z / 2 → (wPreimages p e m.map (.some x y hn)).encard ≤ 6) := by
  have : Fact (2 < p) := ⟨by have := he.prime.two_le; have := he.odd; omega⟩
  have hok : rhs (val p e.a) (val p e.b) (val p z) ≠ 0 ∧ 3 * val p z ^ 2 + 4 * val p e.a ≠ 0 := by
    by_contra h
    rw [(C42_new p e he hs z hz).2 (fun h' => h ⟨h'.1, h'.2.1⟩)] at hm
    cases hm
  obtain ⟨c, hc, -, hmap⟩ := C42_map p e he hs z hz m hm
  refine ⟨?_, fun x y hn hy => ?_⟩
  · rw [Set.eq_empty_iff_forall_notMem]
    rintro u ⟨hu, h0⟩
    obtain ⟨y, hn, h, -⟩ := hmap u hu
    exact WeierstrassCurve.Affine.Point.some_ne_zero hn (wReturns_unique h h0)
  · have hpar : ∀ y : ZMod p, y ≠ 0 → (-y).val % 2 ≠ y.val % 2 := fun y hy => by
      rw [neg_parity hy]; have := Nat.mod_two_eq_zero_or_one y.val; omega
    have h2 : (2 : ZMod p) ≠ 0 := MLink.two_ne_zero' he.odd
    have hf := Fibres.svdw hpar h2 (a := val p e.a) (b := val p e.b) (z := val p z) (c := c) (x := x) (y.val % 2) hok.1 hok.2 hc
    exact ⟨preimages_le m.map _ hmap hn hy 8 hf.1, fun hx1 hx2 => preimages_le m.map _ hmap hn hy 6 (hf.2 hx2 hx1)⟩

/-- C71, Shallue-van de Woestijne at the points of order two: at most twelve inputs are sent to any one of them, at most eight unless the
abscissa is `Z` or `-Z/2`. -/
theorem _root_.Redox.Props.C71_svdw_order_two (he : WCurve p e) (hs : p % 4 = 3 ∨ p % 8 = 5) (z : FpElt) (hz : Canon p z)
    (m : SVDW) (hm : SVDW.new e z = R.ok m) (x : ZMod p) (hn : (wGroup p e).Nonsingular x 0) :
    (wPreimages p e m.map (.some x 0 hn)).encard ≤ 12 ∧
    (x ≠ val p z → x ≠ -val p z / 2 → (wPreimages p e m.map (.some x 0 hn)).encard ≤ 8) := by
  have : Fact (2 < p) := ⟨by have := he.prime.two_le; have := he.odd; omega⟩
  have hok : rhs (val p e.a) (val p e.b) (val p z) ≠ 0 ∧ 3 * val p z ^ 2 + 4 * val p e.a ≠ 0 := by
    by_contra h
    rw [(C42_new p e he hs z hz).2 (fun h' => h ⟨h'.1, h'.2.1⟩)] at hm
    cases hm
  obtain ⟨c, hc, -, hmap⟩ := C42_map p e he hs z hz m hm
  have hpar : ∀ y : ZMod p, y ≠ 0 → (-y).val % 2 ≠ y.val % 2 := fun y hy => by
    rw [neg_parity hy]; have := Nat.mod_two_eq_zero_or_one y.val; omega
  have h2 : (2 : ZMod p) ≠ 0 := MLink.two_ne_zero' he.odd
  have hf := Fibres.svdw_all hpar h2 (a := val p e.a) (b := val p e.b) (z := val p z) (c := c) (x := x) hok.1 hok.2 hc
  exact ⟨preimages_le' m.map _ hmap hn 12 hf.1, fun hx1 hx2 => preimages_le' m.map _ hmap hn 8 (hf.2 hx2 hx1)⟩

end

/-! ## The named curves -/

open Redox.Inst

theorem y_ne_zero {p : ℕ} [Fact p.Prime] {e : Curve} (ht : NoTwoTorsion p e) {x y : ZMod p}
    (hn : (wGroup p e).Nonsingular x y) : y ≠ 0 := by
  rintro rfl
  refine WeierstrassCurve.Affine.Point.some_ne_zero hn (ht _ ?_)
  exact WeierstrassCurve.Affine.Point.add_self_of_Y_eq (by simp [WeierstrassCurve.Affine.negY])

/-- C71 on `P256`, `P384` and `P521` with the `Z` of RFC 9380: at most six field elements are sent to any one point. -/
theorem _root_.Redox.Props.C71_named_sswu : ∀ t ∈ Inst.sswuSuites, ∃ (_ : Fact t.2.1.Prime) (e : Curve) (m : SSWU),
    t.1 = R.ok e ∧ (do SSWU.new e (← e.f.fromPrim t.2.2)) = R.ok m ∧
      ∀ A, (wPreimages t.2.1 e m.map A).encard ≤ 6 := by
  have key : ∀ (c : R Curve) (p : ℕ) (Z : ℤ) [Fact p.Prime] (e : Curve), c = R.ok e → WValid p e →
      p % 4 = 3 ∨ p % 8 = 5 → ((do SSWU.new e (← e.f.fromPrim Z)).bind fun _ => R.ok true) = R.ok true →
      ∃ (_ : Fact p.Prime) (e : Curve) (m : SSWU),
      c = R.ok e ∧ (do SSWU.new e (← e.f.fromPrim Z)) = R.ok m ∧ ∀ A, (wPreimages p e m.map A).encard ≤ 6 := by
    intro c p Z _ e hc hv hs hnew
    obtain ⟨m, hm, -⟩ := R.bind_eq_ok.1 hnew
    obtain ⟨z, hz, hzc, hzv⟩ := Inst.fromPrim_val hv.curve.field Z
    refine ⟨inferInstance, e, m, hc, hm, fun A => ?_⟩
    rw [hz, R.ok_bind] at hm
    obtain ⟨h0, h1⟩ := C71_sswu p e hv.curve hs z hzc m hm
    rcases A with _ | ⟨x, y, hn⟩
    · rw [show wPreimages p e m.map .zero = ∅ from h0]; simp
    · exact (h1 x y hn (y_ne_zero hv.complete hn)).1
  rw [Inst.sswuSuites, Inst.p256_p_eq, Inst.p384_p_eq, Inst.p521_p_eq]
  simp only [List.forall_mem_cons]
  exact ⟨key _ _ _ _ p256_eq p256_valid (by decide +kernel) (by decide +kernel),
    key _ _ _ _ p384_eq p384_valid (by decide +kernel) (by decide +kernel),
    key _ _ _ _ p521_eq p521_valid (by decide +kernel) (by decide +kernel), by simp⟩

/-- C71 on the five Weierstrass curves with the `Z` of RFC 9380: at most eight field elements are sent to any one point. -/
theorem _root_.Redox.Props.C71_named_svdw : ∀ t ∈ Inst.svdwSuites, ∃ (_ : Fact t.2.1.Prime) (e : Curve) (m : SVDW),
    t.1 = R.ok e ∧ (do SVDW.new e (← e.f.fromPrim t.2.2)) = R.ok m ∧
      ∀ A, (wPreimages t.2.1 e m.map A).encard ≤ 8 := by
  have key : ∀ (c : R Curve) (p : ℕ) (Z : ℤ) [Fact p.Prime] (e : Curve), c = R.ok e → WValid p e →
      p % 4 = 3 ∨ p % 8 = 5 → ((do SVDW.new e (← e.f.fromPrim Z)).bind fun _ => R.ok true) = R.ok true →
      ∃ (_ : Fact p.Prime) (e : Curve) (m : SVDW),
      c = R.ok e ∧ (do SVDW.new e (← e.f.fromPrim Z)) = R.ok m ∧ ∀ A, (wPreimages p e m.map A).encard ≤ 8 := by
    intro c p Z _ e hc hv hs hnew
    obtain ⟨m, hm, -⟩ := R.bind_eq_ok.1 hnew
    obtain ⟨z, hz, hzc, hzv⟩ := Inst.fromPrim_val hv.curve.field Z
    refine ⟨inferInstance, e, m, hc, hm, fun A => ?_⟩
    rw [hz, R.ok_bind] at hm
    obtain ⟨h0, h1⟩ := C71_svdw p e hv.curve hs z hzc m hm
    rcases A with _ | ⟨x, y, hn⟩
    · rw [show wPreimages p e m.map .zero = ∅ from h0]; simp
    · exact (h1 x y hn (y_ne_zero hv.complete hn)).1
  rw [Inst.svdwSuites, Inst.p256_p_eq, Inst.p384_p_eq, Inst.p521_p_eq, Inst.secp256k1_p_eq, Inst.bls_p_eq]
  simp only [List.forall_mem_cons]
  exact ⟨key _ _ _ _ p256_eq p256_valid (by decide +kernel) (by decide +kernel),
    key _ _ _ _ p384_eq p384_valid (by decide +kernel) (by decide +kernel),
    key _ _ _ _ p521_eq p521_valid (by decide +kernel) (by decide +kernel),
    key _ _ _ _ secp256k1_eq secp256k1_valid (by decide +kernel) (by decide +kernel),
    key _ _ _ _ bls12381g1_eq bls12381g1_valid (by decide +kernel) (by decide +kernel), by simp⟩

/-- Composition with a homomorphism whose kernel has `K` elements. -/
theorem iso_preimages {p : ℕ} [Fact p.Prime] {m : IsoMap} {φ : (wGroup p m.e0).Point →+ (wGroup p m.e1).Point}
    (hφ : ∀ A, IsoImage m A (φ A)) (h0 : WCurve p m.e0) (ht : NoTwoTorsion p m.e0) (z : FpElt) (hz : Canon p z) (s : SSWU)
    (hs : SSWU.new m.e0 z = R.ok s) (map : FpElt → R Point) (B : (wGroup p m.e1).Point)
    (hmap : ∀ u, Canon p u → WReturns p m.e1 (map u) B →
      ∃ y hn B, IsoImage m (.some (sswuX (val p m.e0.a) (val p m.e0.b) (val p z) (val p u)) y hn) B ∧
      (y = 0 ∨ y.val % 2 = (val p u).val % 2) ∧ B ≠ 0 ∧ WReturns p m.e1 (map u) B) (K : ℕ) (hK : Nat.card φ.ker = K)
    (hK0 : K ≠ 0) :
    (wPreimages p m.e1 map B).encard ≤ (6 * K : ℕ) := by
  classical
  have : Fact (2 < p) := ⟨by have := h0.prime.two_le; have := h0.odd; omega⟩
  have hpar : ∀ y : ZMod p, y ≠ 0 → (-y).val % 2 ≠ y.val % 2 := fun y hy => by
    rw [neg_parity hy]; have := Nat.mod_two_eq_zero_or_one y.val; omega
  have hok : val p m.e0.a ≠ 0 ∧ val p m.e0.b ≠ 0 ∧ ¬ IsSquare (val p z) ∧ val p z ≠ -1 ∧
      IsSquare (rhs (val p m.e0.a) (val p m.e0.b) (val p m.e0.b / (val p z * val p m.e0.a))) := by
    by_contra h
    rw [(C41_new p m.e0 h0 z hz).2 h] at hs
    cases hs
  obtain ⟨ha, hb, hz', -, hsq⟩ := hok
  have hz0 : val p z ≠ 0 := fun h => hz' (h ▸ IsSquare.zero)
  let T : Finset (ZMod p) := Finset.univ.filter fun u => WReturns p m.e1 (map (el u)) B
  have hle : (wPreimages p m.e1 map B).encard ≤ (T.card : ℕ∞) := by
    rw [← Set.encard_coe_eq_coe_finsetCard]
    refine Set.encard_le_encard_of_injOn (f := val p) ?_ ?_
    · rintro u ⟨hu, hr⟩
      obtain ⟨u', rfl⟩ := canon_iff.1 hu
      rw [val_el, Finset.mem_coe, Finset.mem_filter]
      exact ⟨Finset.mem_univ _, hr⟩
    · rintro u ⟨hu, -⟩ v ⟨hv, -⟩ huv
      obtain ⟨u', rfl⟩ := canon_iff.1 hu
      obtain ⟨v', rfl⟩ := canon_iff.1 hv
      simp only [val_el] at huv
      rw [huv]
  refine hle.trans ?_
  have hg : ∀ u : ZMod p, ∃ A : (wGroup p m.e0).Point, u ∈ T → φ A = B ∧ ∃ x y hn, A = .some x y hn ∧
      u.val % 2 = y.val % 2 ∧ sswuX (val p m.e0.a) (val p m.e0.b) (val p z) u = x := by
    intro u
    by_cases hu : u ∈ T
    · obtain ⟨y, hn, B', hB, hy, -, hr⟩ := hmap (el u) (canon_iff.2 ⟨u, rfl⟩) (Finset.mem_filter.1 hu).2
      have hBB := wReturns_unique hr (Finset.mem_filter.1 hu).2
      subst hBB
      refine ⟨_, fun _ => ⟨Isog.image_unique (hφ _) hB, _, y, hn, rfl, ?_, ?_⟩⟩
      · rw [(hy.resolve_left (y_ne_zero ht hn)), val_el]
      · rw [val_el]
    · exact ⟨0, fun h => absurd h hu⟩
  choose g hg using hg
  have hfin : (φ ⁻¹' {B}).encard ≤ K := by
    by_cases hne : (φ ⁻¹' {B}).Nonempty
    · obtain ⟨A0, hA0⟩ := hne
      have : Finite φ.ker := Nat.finite_of_card_ne_zero (hK ▸ hK0)
      have h1 : (φ ⁻¹' {B}).encard ≤ (φ.ker : Set (wGroup p m.e0).Point).encard := by
        refine Set.encard_le_encard_of_injOn (f := fun A => A - A0) ?_ ?_
        · intro A hA
          change A - A0 ∈ φ.ker
          rw [AddMonoidHom.mem_ker, map_sub, show φ A = B from hA, show φ A0 = B from hA0, sub_self]
        · intro A _ A' _ h
          exact sub_left_injective h
      refine h1.trans ?_
      have hf : (φ.ker : Set (wGroup p m.e0).Point).Finite := Set.toFinite _
      rw [hf.encard_eq_coe, ← hK]
      exact le_of_eq rfl
    · rw [Set.not_nonempty_iff_eq_empty.1 hne]; simp
  have h1 : T.card ≤ 6 * (T.image g).card := by
    refine Finset.card_le_mul_card_image T 6 ?_
    intro A hA
    obtain ⟨u0, hu0, rfl⟩ := Finset.mem_image.1 hA
    obtain ⟨-, x, y, hn, hA, -, -⟩ := hg u0 hu0
    have hf := (Fibres.sswu hpar (a := val p m.e0.a) (b := val p m.e0.b) (z := val p z) (x := x) (y.val % 2) ha hb hz0 hsq).1
    have hsub : (↑({v ∈ T | g v = g u0} : Finset (ZMod p)) : Set (ZMod p)) ⊆
        {u : ZMod p | u.val % 2 = y.val % 2 ∧ sswuX (val p m.e0.a) (val p m.e0.b) (val p z) u = x} := by
      intro v hv
      obtain ⟨hvT, hvg⟩ := Finset.mem_filter.1 hv
      obtain ⟨-, x', y', hn', hA', h1, h2⟩ := hg v hvT
      rw [hvg, hA, WeierstrassCurve.Affine.Point.some.injEq] at hA'
      obtain ⟨rfl, rfl⟩ := hA'
      exact ⟨h1, h2⟩
    have := (Set.encard_le_encard hsub).trans hf
    rw [Set.encard_coe_eq_coe_finsetCard] at this
    exact_mod_cast this
  have h2 : ((T.image g).card : ℕ∞) ≤ K := by
    rw [← Set.encard_coe_eq_coe_finsetCard]
    refine (Set.encard_le_encard ?_).trans hfin
    intro A hA
    obtain ⟨u, hu, rfl⟩ := Finset.mem_image.1 (Finset.mem_coe.1 hA)
    exact (hg u hu).1
  have h2' : (T.image g).card ≤ K := by exact_mod_cast h2
  have : T.card ≤ 6 * K := h1.trans (Nat.mul_le_mul_left 6 h2')
  exact_mod_cast this

/-- C71 for the map to `SECP256K1` through its 3-isogenous curve, for every `Z` accepted by `SSWUAB0::new`: at most six field
elements are sent to any one point. -/
theorem _root_.Redox.Props.C71_secp256k1 (m : IsoMap) (hm : get_isogeny_secp256k1 = R.ok m) (z : FpElt)
    (hz : Canon secp256k1_p z) (M : SSWUAB0) (hM : SSWUAB0.new m.e1 z m.toIsogeny = R.ok M)
    (B : (wGroup secp256k1_p m.e1).Point) : (wPreimages secp256k1_p m.e1 M.map B).encard ≤ 6 := by
  obtain ⟨φ, hφ, hbij⟩ := C67_secp256k1 m hm
  have hmap := fun u hu => C45_map m hm z u hz hu M hM
  rw [isoSecp256k1_eq, R.ok.injEq] at hm
  subst hm
  obtain ⟨s, hs, -⟩ := Isog.ab0_new isoSecp256k1 (by decide +kernel) z M hM
  have hker : Nat.card φ.ker = 1 := by
    rw [(AddMonoidHom.ker_eq_bot_iff φ).2 hbij.1]; simp
  exact iso_preimages hφ isoSecp256k1_ok.e0 secp256k1_3iso_valid.complete z hz s hs M.map B
    (fun u hu _ => hmap u hu) 1 hker one_ne_zero

/-- C71 for the map to `BLS12381G1` through its 11-isogenous curve with `Z = 11`: at most sixty-six field elements are sent to any
one point. -/
theorem _root_.Redox.Props.C71_bls12381g1 (m : IsoMap) (hm : get_isogeny_bls12381g1 = R.ok m) (z : FpElt)
    (hz : m.e1.f.fromPrim 11 = R.ok z) (M : SSWUAB0) (hM : SSWUAB0.new m.e1 z m.toIsogeny = R.ok M)
    (B : (wGroup bls12381g1_p m.e1).Point) : (wPreimages bls12381g1_p m.e1 M.map B).encard ≤ 66 := by
  obtain ⟨φ, hφ, hker⟩ := C67_bls12381g1 m hm
  have hmap : ∀ u, Canon bls12381g1_p u → WReturns bls12381g1_p m.e1 (M.map u) B → _ := fun u hu hr =>
    C46_map_partial m hm z hz u hu M hM fun hbad => by
      rw [((C46_refuted_map m hm z hz M hM).2.2 u hu).2 hbad] at hr
      obtain ⟨S, hS, -⟩ := hr
      cases hS
  rw [isoBls12381g1_eq, R.ok.injEq] at hm
  subst hm
  have hzc : Canon bls12381g1_p z := by
    obtain ⟨z', hz', hc, -⟩ := Inst.fromPrim_val (p := bls12381g1_p) isoBls12381g1_ok.e1.field 11
    rw [hz', R.ok.injEq] at hz
    exact hz ▸ hc
  obtain ⟨s, hs, -⟩ := Isog.ab0_new isoBls12381g1 (by decide +kernel) z M hM
  exact iso_preimages hφ isoBls12381g1_ok.e0 bls12381g1_11iso_valid.complete z hzc s hs M.map B hmap 11 hker (by norm_num)

/-- The hypotheses of the general statements are met, with points that have several preimages: on `toyMap` over GF(7) the
simplified SWU map sends 0 and 4 to `(6, 4)` and SVDW sends 4 and 6 to `(0, 2)`. -/
example : WCurve 7 toyMap ∧
    (do let m ← SSWU.new toyMap ⟨3, ⟨7⟩⟩
        (← m.map ⟨0, ⟨7⟩⟩).eq (← m.map ⟨4, ⟨7⟩⟩)) = R.ok true ∧
    (do let m ← SVDW.new toyMap ⟨4, ⟨7⟩⟩
        (← m.map ⟨4, ⟨7⟩⟩).eq (← m.map ⟨6, ⟨7⟩⟩)) = R.ok true := by
  refine ⟨⟨by norm_num, by norm_num, rfl, ⟨rfl, by decide, by decide⟩, ⟨rfl, by decide, by decide⟩, by decide⟩, ?_, ?_⟩ <;>
    decide +kernel

/-- `y² = x³ + 3x + 1` over GF(7), with the point `(4, 0)` of order two. -/
def toyRoot : Curve := ⟨⟨7⟩, ⟨3, ⟨7⟩⟩, ⟨1, ⟨7⟩⟩, 12, ⟨0, ⟨7⟩⟩, ⟨1, ⟨7⟩⟩, 1⟩

/-- Points of order two are hit: here simplified SWU sends 0, 3 and 4, and Shallue-van de Woestijne 2, 3, 4 and 5, to `(4, 0)`. -/
example : WCurve 7 toyRoot ∧
    (∀ u ∈ [0, 3, 4], (do (← SSWU.new toyRoot ⟨3, ⟨7⟩⟩).map ⟨u, ⟨7⟩⟩) = R.ok ⟨toyRoot, ⟨⟨4, ⟨7⟩⟩, ⟨0, ⟨7⟩⟩, ⟨1, ⟨7⟩⟩⟩⟩) ∧
    (∀ u ∈ [2, 3, 4, 5], (do (← SVDW.new toyRoot ⟨2, ⟨7⟩⟩).map ⟨u, ⟨7⟩⟩) = R.ok ⟨toyRoot, ⟨⟨4, ⟨7⟩⟩, ⟨0, ⟨7⟩⟩, ⟨1, ⟨7⟩⟩⟩⟩) := by
  refine ⟨⟨by norm_num, by norm_num, rfl, ⟨rfl, by decide, by decide⟩, ⟨rfl, by decide, by decide⟩, by decide⟩, ?_, ?_⟩ <;>
    decide +kernel

end Redox.Props.Map
