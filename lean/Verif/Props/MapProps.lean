import Verif.Proofs.MapLink
import Verif.Props.WeierPoints
import Verif.Props.MontPoints

/-!
# C41, C42, C43: maps from field elements to curve points
-/

set_option linter.unusedSectionVars false

namespace Redox.Props.Map

open Spec

section weierstrass
open Weierstrass WLink RCB
variable {p : ℕ} [Fact p.Prime] {e : Curve}

/-- `new_point` on a solution of the curve equation. -/
theorem newPoint_some (he : WCurve p e) {x y : ZMod p} (h : y ^ 2 = rhs (val p e.a) (val p e.b) x) :
    ∃ hn : (wGroup p e).Nonsingular x y, WReturns p e (e.newPoint (el x) (el y)) (.some x y hn) := by
  have hc : x ^ 3 + 1 * (1 * (val p e.a * x + val p e.b * 1) - y ^ 2) = 0 := by unfold rhs at h; linear_combination -h
  obtain ⟨A, hA⟩ := exists_rep he.odd he.nonsingular hc (Or.inr one_ne_zero)
  rcases A with _ | ⟨u, v, hn⟩
  · exact absurd hA.2.2 one_ne_zero
  · obtain ⟨-, h1, h2⟩ := hA
    rw [mul_one] at h1 h2
    subst h1 h2
    refine ⟨hn, _, by rw [WLink.newPoint_pt he, if_pos (by unfold rhs at h; linear_combination h)], ?_⟩
    exact denotes_iff.2 ⟨_, _, _, rfl, one_ne_zero, (mul_one _).symm, (mul_one _).symm⟩

/-- The sign rule: `y` is the square root with the parity of `u`. -/
theorem matchSign_rule [Fact (2 < p)] (u y : ZMod p) :
    matchSign u y = 0 ∨ (matchSign u y).val % 2 = u.val % 2 := by
  by_cases hy : y = 0
  · left; unfold matchSign; rw [hy]; simp
  · exact Or.inr (matchSign_parity hy)

/-- Two opposite inputs with opposite signs give opposite ordinates. -/
theorem matchSign_neg [Fact (2 < p)] {u : ZMod p} (hu : u ≠ 0) (y : ZMod p) : matchSign (-u) y = -matchSign u y := by
  by_cases hy : y = 0
  · unfold matchSign; rw [hy]; simp
  · unfold matchSign
    rw [neg_parity hu]
    have := Nat.mod_two_eq_zero_or_one u.val
    have := Nat.mod_two_eq_zero_or_one y.val
    split_ifs with h1 h2 h3
    · omega
    · rw [neg_neg]
    · rfl
    · omega

end weierstrass

section weierstrass
open Weierstrass WLink RCB
variable (p : ℕ) [Fact p.Prime] (e : Curve)

/-! ## C41 -/

/-- C41: `SSWU::new` succeeds exactly when `A` and `B` are nonzero, `Z` is a non-square other than `-1`, and `g(B/(ZA))` is
a square; otherwise it panics with "wrong input parameters". -/
theorem _root_.Redox.Props.C41_new (he : WCurve p e) (z : FpElt) (hz : Canon p z) :
    let a := val p e.a
    let b := val p e.b
    let Z := val p z
    let ok := a ≠ 0 ∧ b ≠ 0 ∧ ¬ IsSquare Z ∧ Z ≠ -1 ∧ IsSquare (rhs a b (b / (Z * a)))
    (ok → ∃ m, SSWU.new e z = R.ok m) ∧ (¬ ok → SSWU.new e z = R.panic .wrongParams) := by
  intro a b Z ok
  haveI : Fact (2 < p) := ⟨by have := he.prime.two_le; have := he.odd; omega⟩
  have h := sswu_new he.field (ea he) (eb he) (val p z)
  rw [← hz.eq_el] at h
  rw [h]
  exact ⟨fun h => ⟨_, if_pos h⟩, fun h => if_neg h⟩

omit e in
/-- The simplified SWU map returns a normalised point. -/
theorem sswu_map_pt {e : Curve} (he : WCurve p e) (hs : p % 4 = 3 ∨ p % 8 = 5) (z u : FpElt) (hz : Canon p z)
    (hu : Canon p u) (m : SSWU) (hm : SSWU.new e z = R.ok m) :
    ∃ y, y ^ 2 = rhs (val p e.a) (val p e.b) (sswuX (val p e.a) (val p e.b) (val p z) (val p u)) ∧
      m.map u = R.ok (pt e (sswuX (val p e.a) (val p e.b) (val p z) (val p u)) y 1) ∧
      (y = 0 ∨ y.val % 2 = (val p u).val % 2) := by
  haveI : Fact (2 < p) := ⟨by have := he.prime.two_le; have := he.odd; omega⟩
  have h := sswu_new he.field (ea he) (eb he) (val p z)
  rw [← hz.eq_el, hm] at h
  split_ifs at h with hok
  obtain ⟨h1, h2, h3, h4, h5⟩ := hok
  rw [R.ok.injEq] at h
  obtain ⟨x, y2, hx, hy, hmap⟩ := sswu_map (e := e) hs he.field (ea he) (eb he) h1 h2 (val p z) (val p u)
    (fun h0 => h3 (h0 ▸ IsSquare.zero))
  obtain ⟨hy2, hsq⟩ := hy h5 h3
  have hmap' : m.map u = e.newPoint (el x) (el (matchSign (val p u) (sqrtZ y2))) := by
    rw [← hmap, h, ← hz.eq_el, ← hu.eq_el]
  have hr : matchSign (val p u) (sqrtZ y2) ^ 2 = rhs (val p e.a) (val p e.b) x := by
    rw [matchSign_sq, pow_two, sqrtZ_sq hs hsq, hy2]
  subst hx
  exact ⟨_, hr, by rw [hmap', WLink.newPoint_pt he, if_pos (by unfold rhs at hr; linear_combination hr)], matchSign_rule _ _⟩

/-- C41. Whenever `SSWU::new` succeeds, `map` returns for every `u` an affine point of the curve. Its abscissa is the one
RFC 9380 prescribes and its ordinate has the parity of `u` (unless it is zero). -/
theorem _root_.Redox.Props.C41_map (he : WCurve p e) (hs : p % 4 = 3 ∨ p % 8 = 5) (z u : FpElt) (hz : Canon p z)
    (hu : Canon p u) (m : SSWU) (hm : SSWU.new e z = R.ok m) :
    ∃ y, ∃ hn : (wGroup p e).Nonsingular (sswuX (val p e.a) (val p e.b) (val p z) (val p u)) y,
      WReturns p e (m.map u) (.some _ y hn) ∧ (y = 0 ∨ y.val % 2 = (val p u).val % 2) := by
  obtain ⟨y, hr, hmap, hpar⟩ := sswu_map_pt p he hs z u hz hu m hm
  obtain ⟨hn, hret⟩ := newPoint_some he hr
  refine ⟨y, hn, ?_, hpar⟩
  rwa [WLink.newPoint_pt he, if_pos (by unfold rhs at hr; linear_combination hr), ← hmap] at hret

/-- C41: the result of `map` is normalised, its `z`-coordinate is one. -/
theorem _root_.Redox.Props.C41_normalised (he : WCurve p e) (hs : p % 4 = 3 ∨ p % 8 = 5) (z u : FpElt) (hz : Canon p z)
    (hu : Canon p u) (m : SSWU) (hm : SSWU.new e z = R.ok m) : ∃ S, m.map u = R.ok S ∧ e.f.one = R.ok S.c.z := by
  haveI : Fact (2 < p) := ⟨by have := he.prime.two_le; have := he.odd; omega⟩
  obtain ⟨y, -, hmap, -⟩ := sswu_map_pt p he hs z u hz hu m hm
  exact ⟨_, hmap, by rw [he.field, one_eq]; rfl⟩

/-- C41: for `u ≠ 0` the images of `u` and `-u` are opposite points. -/
theorem _root_.Redox.Props.C41_odd (he : WCurve p e) (hs : p % 4 = 3 ∨ p % 8 = 5) (z u u' : FpElt) (hz : Canon p z)
    (hu : Canon p u) (hu' : Canon p u') (h0 : val p u ≠ 0) (hneg : val p u' = -val p u) (m : SSWU)
    (hm : SSWU.new e z = R.ok m) :
    ∃ A, WReturns p e (m.map u) A ∧ WReturns p e (m.map u') (-A) := by
  haveI : Fact (2 < p) := ⟨by have := he.prime.two_le; have := he.odd; omega⟩
  obtain ⟨y, hn, hr, hs1⟩ := C41_map p e he hs z u hz hu m hm
  obtain ⟨y', hn', hr', hs2⟩ := C41_map p e he hs z u' hz hu' m hm
  refine ⟨_, hr, ?_⟩
  have hx : sswuX (val p e.a) (val p e.b) (val p z) (val p u') = sswuX (val p e.a) (val p e.b) (val p z) (val p u) := by
    rw [hneg]; unfold sswuX; rw [neg_sq]
  have e1 := ((nonsingular_iff _ _ _ _).1 hn).1
  have e2 := ((nonsingular_iff _ _ _ _).1 hn').1
  rw [hx] at e2
  have hyy : y' = -y := by
    have : (y' - y) * (y' + y) = 0 := by linear_combination e2 - e1
    rcases mul_eq_zero.1 this with h | h
    · have hy : y' = y := sub_eq_zero.1 h
      by_cases hy0 : y = 0
      · rw [hy, hy0, neg_zero]
      · exfalso
        have p1 := hs1.resolve_left hy0
        have p2 := hs2.resolve_left (hy ▸ hy0)
        rw [hneg, neg_parity h0, hy, p1] at p2
        have := Nat.mod_two_eq_zero_or_one (val p u).val
        omega
    · exact eq_neg_of_add_eq_zero_left h
  have : (-(WeierstrassCurve.Affine.Point.some _ y hn) : (wGroup p e).Point) = .some _ y' hn' := by
    rw [WeierstrassCurve.Affine.Point.neg_some]
    congr 1
    · exact hx.symm
    · rw [hyy]; simp [WeierstrassCurve.Affine.negY]
  rw [this]
  exact hr'

/-! ## C42 -/

/-- C42: `SVDW::new` succeeds exactly when `g(Z) ≠ 0`, `3Z²+4A ≠ 0`, `-(3Z²+4A)/(4g(Z))` is a square, and `g(Z)` or
`g(-Z/2)` is a square; otherwise it panics with "wrong input parameters". -/
theorem _root_.Redox.Props.C42_new (he : WCurve p e) (hs : p % 4 = 3 ∨ p % 8 = 5) (z : FpElt) (hz : Canon p z) :
    let a := val p e.a
    let b := val p e.b
    let Z := val p z
    let ok := rhs a b Z ≠ 0 ∧ 3 * Z ^ 2 + 4 * a ≠ 0 ∧ IsSquare (-(3 * Z ^ 2 + 4 * a) / (4 * rhs a b Z)) ∧
      (IsSquare (rhs a b Z) ∨ IsSquare (rhs a b (-Z / 2)))
    (ok → ∃ m, SVDW.new e z = R.ok m) ∧ (¬ ok → SVDW.new e z = R.panic .wrongParams) := by
  intro a b Z ok
  haveI : Fact (2 < p) := ⟨by have := he.prime.two_le; have := he.odd; omega⟩
  have h := svdw_new hs he.field (ea he) (eb he) (val p z)
  rw [← hz.eq_el] at h
  rw [h]
  exact ⟨fun h => ⟨_, if_pos h⟩, fun h => if_neg h⟩

/-- C42. Whenever `SVDW::new` succeeds, `map` returns for every `u` an affine point of the curve. Its abscissa is the one
RFC 9380 prescribes (with the even square root of `-g(Z)(3Z²+4A)`) and its ordinate has the parity of `u` (unless it is
zero). -/
theorem _root_.Redox.Props.C42_map (he : WCurve p e) (hs : p % 4 = 3 ∨ p % 8 = 5) (z : FpElt) (hz : Canon p z)
    (m : SVDW) (hm : SVDW.new e z = R.ok m) :
    ∃ c : ZMod p, c ^ 2 = -rhs (val p e.a) (val p e.b) (val p z) * (3 * val p z ^ 2 + 4 * val p e.a) ∧ c.val % 2 = 0 ∧
      ∀ u, Canon p u → ∃ y, ∃ hn : (wGroup p e).Nonsingular (svdwX (val p e.a) (val p e.b) (val p z) c (val p u)) y,
        WReturns p e (m.map u) (.some _ y hn) ∧ (y = 0 ∨ y.val % 2 = (val p u).val % 2) := by
  haveI : Fact (2 < p) := ⟨by have := he.prime.two_le; have := he.odd; omega⟩
  have h := svdw_new hs he.field (ea he) (eb he) (val p z)
  rw [← hz.eq_el, hm] at h
  split_ifs at h with hok
  obtain ⟨h1, h2, h3, h4⟩ := hok
  rw [R.ok.injEq] at h
  set G := rhs (val p e.a) (val p e.b) (val p z) with hG
  set H := 3 * val p z ^ 2 + 4 * val p e.a with hH
  have h4' : (4 : ZMod p) ≠ 0 := by
    have : (4 : ZMod p) = 2 * 2 := by norm_num
    rw [this]; exact mul_ne_zero (two_ne_zero' he.odd) (two_ne_zero' he.odd)
  have hsq : IsSquare (-G * H) := by
    obtain ⟨r, hr⟩ := h3
    refine ⟨2 * G * r, ?_⟩
    have : 2 * G * r * (2 * G * r) = 4 * G ^ 2 * (r * r) := by ring
    rw [this, ← hr]; field_simp
  have hc2 : (matchSign 0 (sqrtZ (-G * H))) ^ 2 = -G * H := by rw [matchSign_sq, pow_two, sqrtZ_sq hs hsq]
  refine ⟨matchSign 0 (sqrtZ (-G * H)), hc2, ?_, fun u hu => ?_⟩
  · rcases matchSign_rule (0 : ZMod p) (sqrtZ (-G * H)) with h | h
    · rw [h]; simp
    · rw [h]; simp
  · obtain ⟨x, hx, hsx, hmap⟩ := svdw_map (e := e) hs he.field (ea he) (eb he) (val p z)
      (matchSign 0 (sqrtZ (-G * H))) (val p u) h1 h2 hc2 h4
    have hmap' : m.map u = e.newPoint (el x) (el (matchSign (val p u) (sqrtZ (rhs (val p e.a) (val p e.b) x)))) := by
      rw [← hmap, h, ← hz.eq_el, ← hu.eq_el]
    rw [hmap']
    have hr : matchSign (val p u) (sqrtZ (rhs (val p e.a) (val p e.b) x)) ^ 2 = rhs (val p e.a) (val p e.b) x := by
      rw [matchSign_sq, pow_two, sqrtZ_sq hs hsx]
    obtain ⟨hn, hret⟩ := newPoint_some he hr
    subst hx
    exact ⟨_, hn, hret, matchSign_rule _ _⟩

/-- `y² = x³ + x + 4` over GF(7). -/
def toyMap : Curve := ⟨⟨7⟩, ⟨1, ⟨7⟩⟩, ⟨4, ⟨7⟩⟩, 10, ⟨0, ⟨7⟩⟩, ⟨2, ⟨7⟩⟩, 1⟩

/-- The hypotheses are met: SSWU with `Z = 3` and SVDW with `Z = 4` exist on this curve and map `u = 2` and `u = 4` to `(5, 6)`
and `(0, 2)`. -/
example : WCurve 7 toyMap ∧ (SSWU.new toyMap ⟨3, ⟨7⟩⟩).isOk ∧ (SVDW.new toyMap ⟨4, ⟨7⟩⟩).isOk ∧
    (do (← SSWU.new toyMap ⟨3, ⟨7⟩⟩).map ⟨2, ⟨7⟩⟩) = R.ok ⟨toyMap, ⟨⟨5, ⟨7⟩⟩, ⟨6, ⟨7⟩⟩, ⟨1, ⟨7⟩⟩⟩⟩ ∧
    (do (← SVDW.new toyMap ⟨4, ⟨7⟩⟩).map ⟨4, ⟨7⟩⟩) = R.ok ⟨toyMap, ⟨⟨0, ⟨7⟩⟩, ⟨2, ⟨7⟩⟩, ⟨1, ⟨7⟩⟩⟩⟩ := by
  refine ⟨⟨by norm_num, by norm_num, rfl, ⟨rfl, by decide, by decide⟩, ⟨rfl, by decide, by decide⟩, by decide⟩, ?_, ?_,
    ?_, ?_⟩ <;> decide +kernel

end weierstrass

section montgomery
open Montgomery MLink
variable (p : ℕ) [Fact p.Prime] (e : Curve)

/-! ## C43 -/

/-- C43: `Ell2::new` succeeds exactly when `a` and `b` are nonzero. It does not look at `Z`. -/
theorem _root_.Redox.Props.C43_new (he : MCurve p e) (z : FpElt) :
    (val p e.a ≠ 0 → ∃ m, Ell2.new e z = R.ok m) ∧ (val p e.a = 0 → Ell2.new e z = R.panic .wrongParams) := by
  haveI : Fact (2 < p) := ⟨MLink.two_lt_of he⟩
  rw [ell2_new (MLink.ea he) (MLink.eb he)]
  exact ⟨fun h => ⟨_, if_pos ⟨h, eb_ne he⟩⟩, fun h => if_neg (fun h' => h'.1 h)⟩

/-- C43 for `b = ±1` (in particular for all built-in curves, where `b = 1`). Whenever `Ell2::new` succeeds and `Z` is a
non-square, `map` returns for every `u` an affine point of the curve; the abscissa is the one RFC 9380 prescribes, and
`y/b` is odd when the first candidate is used and even otherwise (unless it is zero). Partial: see `C43_refuted_b`. -/
theorem _root_.Redox.Props.C43_map_partial (he : MCurve p e) (hb : val p e.b ^ 2 = 1) (hs : p % 4 = 3 ∨ p % 8 = 5)
    (z u : FpElt) (hz : Canon p z) (hzn : ¬ IsSquare (val p z)) (hu : Canon p u) (m : Ell2) (hm : Ell2.new e z = R.ok m) :
    ∃ P, m.map u = R.ok P ∧ P.e = e ∧ e.isOnCurve P = R.ok true ∧ Canon p P.c.x ∧ Canon p P.c.y ∧ P.c.z = ⟨1, ⟨p⟩⟩ ∧
      val p P.c.x = val p e.b * ell2X (val p e.a) (val p e.b) (val p z) (val p u) ∧
      val p e.b * val p P.c.y ^ 2 = val p P.c.x ^ 3 + val p e.a * val p P.c.x ^ 2 + val p P.c.x ∧
      (val p P.c.y = 0 ∨ ((val p P.c.y / val p e.b).val % 2 = 1 ↔
        IsSquare (mrhs (val p e.a) (val p e.b) (ell2X1 (val p e.a) (val p e.b) (val p z) (val p u))))) := by
  classical
  haveI : Fact (2 < p) := ⟨MLink.two_lt_of he⟩
  rw [ell2_new (MLink.ea he) (MLink.eb he)] at hm
  split_ifs at hm with hok
  rw [R.ok.injEq] at hm
  subst hm
  have hb0 := hok.2
  obtain ⟨a, ha⟩ : ∃ a, a = val p e.a := ⟨_, rfl⟩
  obtain ⟨b, hb'⟩ : ∃ b, b = val p e.b := ⟨_, rfl⟩
  rw [← ha, ← hb'] at hok ⊢
  rw [← hb'] at hb hb0
  have hinv : b⁻¹ = b := by field_simp; linear_combination -hb
  obtain ⟨odd, dec, t, x1, gx1, x, y2, ht, hx1, hg, hodd, hx, hy2, hmap⟩ :=
    ell2_map (e := e) hs he.field (MLink.eb he) (val p z) (a * b) (b⁻¹ ^ 2) (val p u)
  rw [← hb'] at hmap
  have ht1 : t + 1 ≠ 0 := by
    rw [ht]; split_ifs with h
    · simp
    · intro h'; exact h (by linear_combination h')
  have hab : a / b = a * b := by rw [div_eq_mul_inv, hinv]
  have hx1s : x1 = ell2X1 a b (val p z) (val p u) := by
    unfold ell2X1
    rw [hx1, ht, hab]
    by_cases h : val p z * val p u ^ 2 = -1
    · rw [if_pos h, if_pos (by rw [h]; ring)]; simp
    · rw [if_neg h, if_neg (fun h' => h (by linear_combination h')), div_eq_mul_inv, add_comm]
  have hgs : gx1 = mrhs a b x1 := by
    unfold mrhs; rw [hg, hab, inv_pow, div_eq_mul_inv]; ring
  have hxs : x = ell2X a b (val p z) (val p u) := by
    unfold ell2X
    rw [← hx1s, ← hgs, hx, hab]
    by_cases h : odd
    · rw [if_pos h, if_pos (hodd.1 h)]
    · rw [if_neg h, if_neg (fun h' => h (hodd.2 h'))]
  -- `y2` is a square and equals the right-hand side at `x`
  have hid := MapId.ell2_id (A := a * b) (B := b⁻¹ ^ 2) ht1
  rw [← hx1] at hid
  have hy : y2 = x ^ 3 + a * b * x ^ 2 + b⁻¹ ^ 2 * x := by
    rw [hy2, hx]
    by_cases h : odd
    · rw [if_pos h, if_pos h, hg]
    · rw [if_neg h, if_neg h, hg]; exact hid.symm
  have hsq : IsSquare y2 := by
    rw [hy2]
    by_cases h : odd
    · rw [if_pos h]; exact hodd.1 h
    · rw [if_neg h]
      have hgn : ¬ IsSquare gx1 := fun h' => h (hodd.2 h')
      rw [ht]
      split_ifs
      · rw [zero_mul]; exact IsSquare.zero
      · have := MapId.isSquare_sq_mul (c := val p u) (MapId.isSquare_mul_of_not hzn hgn)
        have e : val p z * val p u ^ 2 * gx1 = val p u ^ 2 * (val p z * gx1) := by ring
        rw [e]; exact this
  set Y := oddSign odd (sqrtZ y2) with hY
  have hY2 : Y ^ 2 = y2 := by
    have : Y ^ 2 = sqrtZ y2 ^ 2 := by rw [hY]; unfold oddSign; split_ifs <;> ring
    rw [this, pow_two, sqrtZ_sq hs hsq]
  have heq : b * (Y * b) ^ 2 = (x * b) ^ 3 + a * (x * b) ^ 2 + x * b := by
    rw [hinv] at hy
    linear_combination b ^ 3 * hY2 + b ^ 3 * hy + (a * x ^ 2 * b ^ 2 + b * x * (b ^ 2 + 1)) * hb
  have hnew := MLink.newPoint_pt he (x * b) (Y * b)
  rw [← ha, ← hb', if_pos heq] at hnew
  have hdiv : Y * b / b = Y := by field_simp
  refine ⟨pt e (x * b) (Y * b) 1, ?_, rfl, ?_, canon_el _, canon_el _, ?_, ?_, ?_, ?_⟩
  · rw [hz.eq_el, hu.eq_el]; rw [hmap, hnew]
  · rw [isOnCurve_pt (MLink.ea he) (MLink.eb he), ← ha, ← hb', decide_eq_true (by linear_combination heq)]
  · simp only [pt, el, cast_one_int]
  · simp only [pt, val_el]; rw [hxs, mul_comm]
  · simp only [pt, val_el]; exact heq
  · simp only [pt, val_el]
    rw [hdiv, ← hx1s, ← hgs, ← hodd, hY]
    by_cases h0 : sqrtZ y2 = 0
    · left; unfold oddSign; rw [h0]; simp
    · right
      unfold oddSign
      split_ifs with h
      · exact h.symm
      · rw [neg_parity h0]
        have := Nat.mod_two_eq_zero_or_one (sqrtZ y2).val
        by_cases ho : odd
        · simp only [ho, true_iff, iff_true] at h ⊢; omega
        · simp only [ho, false_iff, iff_false, not_not] at h ⊢; omega

/-- C43 for `b = 1`, in terms of the group of the curve: the image is the point that RFC 9380 prescribes, with the sign it prescribes. -/
theorem _root_.Redox.Props.C43_group_partial (he : MCurve p e) (hb : val p e.b = 1) (hs : p % 4 = 3 ∨ p % 8 = 5)
    (z u : FpElt) (hz : Canon p z) (hzn : ¬ IsSquare (val p z)) (hu : Canon p u) (m : Ell2) (hm : Ell2.new e z = R.ok m) :
    ∃ y, ∃ hn : (mGroup p e).Nonsingular (ell2X (val p e.a) 1 (val p z) (val p u)) y,
      Ell2Sign (val p e.a) (val p z) (val p u) y ∧ MReturns p e (m.map u) (.some _ y hn) := by
  obtain ⟨P, h1, h2, h3, h4, h5, h6, h7, h8, h9⟩ := C43_map_partial p e he (by rw [hb]; ring) hs z u hz hzn hu m hm
  rw [hb, one_mul] at h7 h8
  rw [hb, div_one] at h9
  haveI : Fact (2 < p) := ⟨MLink.two_lt_of he⟩
  obtain ⟨A, hA⟩ := MLink.exists_rep he.odd (ea_ne he) (x := val p P.c.x) (y := val p P.c.y) (z := 1)
    (by linear_combination h8) (Or.inr one_ne_zero)
  rcases A with _ | ⟨x, y, hn⟩
  · exact absurd hA.2.2 one_ne_zero
  · obtain ⟨-, e1, e2⟩ := hA
    rw [mul_one] at e1 e2
    rw [h7] at e1
    subst e1
    refine ⟨y, hn, e2 ▸ h9, P, h1, h2, h4, h5, ?_, ?_, ?_, ?_⟩
    · rw [h6]; exact ⟨rfl, by simp, by simpa using Fact.out (p := 1 < p)⟩
    · rw [h6]; simp [val]
    · rw [h6, h7]; simp [val]
    · rw [h6, e2]; simp [val]

/-- C43 is refuted for every curve with `b² ≠ 1` (and `a ≠ 0`): for every non-square `Z` and every `u` with
`Z u² ∉ {0, -1}`, `map` panics with "not valid point". (`ca` is computed as `a·b` where the method needs `a/b`.) -/
theorem _root_.Redox.Props.C43_refuted_b (he : MCurve p e) (hb : val p e.b ^ 2 ≠ 1) (hs : p % 4 = 3 ∨ p % 8 = 5)
    (z u : FpElt) (hz : Canon p z) (hzn : ¬ IsSquare (val p z)) (hu : Canon p u) (hu0 : val p u ≠ 0)
    (hu1 : val p z * val p u ^ 2 ≠ -1) (m : Ell2) (hm : Ell2.new e z = R.ok m) :
    m.map u = R.panic .notValidPoint := by
  classical
  haveI : Fact (2 < p) := ⟨MLink.two_lt_of he⟩
  rw [ell2_new (MLink.ea he) (MLink.eb he)] at hm
  split_ifs at hm with hok
  rw [R.ok.injEq] at hm
  subst hm
  obtain ⟨ha0, hb0⟩ := hok
  obtain ⟨a, ha⟩ : ∃ a, a = val p e.a := ⟨_, rfl⟩
  obtain ⟨b, hb'⟩ : ∃ b, b = val p e.b := ⟨_, rfl⟩
  rw [← ha] at ha0 ⊢
  rw [← hb'] at hb0 hb ⊢
  obtain ⟨odd, dec, t, x1, gx1, x, y2, ht, hx1, hg, hodd, hx, hy2, hmap⟩ :=
    ell2_map (e := e) hs he.field (MLink.eb he) (val p z) (a * b) (b⁻¹ ^ 2) (val p u)
  rw [← hb'] at hmap
  rw [if_neg hu1] at ht
  have hz0 : val p z ≠ 0 := fun h => hzn (h ▸ IsSquare.zero)
  have ht0 : t ≠ 0 := by rw [ht]; exact mul_ne_zero hz0 (pow_ne_zero _ hu0)
  have ht1 : t + 1 ≠ 0 := by rw [ht]; intro h'; exact hu1 (by linear_combination h')
  have hid := MapId.ell2_id (A := a * b) (B := b⁻¹ ^ 2) ht1
  rw [← hx1] at hid
  have hy : y2 = x ^ 3 + a * b * x ^ 2 + b⁻¹ ^ 2 * x := by
    rw [hy2, hx]
    by_cases h : odd
    · rw [if_pos h, if_pos h, hg]
    · rw [if_neg h, if_neg h, hg]; exact hid.symm
  have hsq : IsSquare y2 := by
    rw [hy2]
    by_cases h : odd
    · rw [if_pos h]; exact hodd.1 h
    · rw [if_neg h]
      have hgn : ¬ IsSquare gx1 := fun h' => h (hodd.2 h')
      rw [ht]
      have := MapId.isSquare_sq_mul (c := val p u) (MapId.isSquare_mul_of_not hzn hgn)
      have e : val p z * val p u ^ 2 * gx1 = val p u ^ 2 * (val p z * gx1) := by ring
      rw [e]; exact this
  set Y := oddSign odd (sqrtZ y2) with hY
  have hY2 : Y ^ 2 = y2 := by
    have : Y ^ 2 = sqrtZ y2 ^ 2 := by rw [hY]; unfold oddSign; split_ifs <;> ring
    rw [this, pow_two, sqrtZ_sq hs hsq]
  have hx0 : x ≠ 0 := by
    rw [hx, hx1]
    split_ifs
    · exact mul_ne_zero (neg_ne_zero.2 (mul_ne_zero ha0 hb0)) (inv_ne_zero ht1)
    · have : -(-(a * b) * (t + 1)⁻¹) - a * b = -(a * b) * t * (t + 1)⁻¹ := by field_simp; ring
      rw [this]
      exact mul_ne_zero (mul_ne_zero (neg_ne_zero.2 (mul_ne_zero ha0 hb0)) ht0) (inv_ne_zero ht1)
  have hne : ¬ (b * (Y * b) ^ 2 = (x * b) ^ 3 + a * (x * b) ^ 2 + x * b) := by
    intro h
    have hb3 : b ^ 3 * (b⁻¹ ^ 2 * x) = b * x := by field_simp
    have : a * b ^ 2 * x ^ 2 * (b ^ 2 - 1) = 0 := by
      linear_combination h - b ^ 3 * hY2 - b ^ 3 * hy - hb3
    have h4 := mul_ne_zero (mul_ne_zero (mul_ne_zero ha0 (pow_ne_zero 2 hb0)) (pow_ne_zero 2 hx0)) (sub_ne_zero.2 hb)
    exact h4 this
  have hnew := MLink.newPoint_pt he (x * b) (Y * b)
  rw [← ha, ← hb', if_neg hne] at hnew
  rw [hz.eq_el, hu.eq_el, hmap, hnew]

/-- `2 y² = x³ + 3 x² + x` over GF(7), for the refutation. -/
def toyM2 : Curve := ⟨⟨7⟩, ⟨3, ⟨7⟩⟩, ⟨2, ⟨7⟩⟩, ⟨1, ⟨7⟩⟩, 1, ⟨0, ⟨7⟩⟩, ⟨0, ⟨7⟩⟩, 1⟩

/-- The refutation applies: a curve with `b² ≠ 1`, a non-square `Z` and an input on which `map` panics. -/
example : MCurve 7 toyM2 ∧ val 7 toyM2.b ^ 2 ≠ 1 ∧ ¬ IsSquare (3 : ZMod 7) ∧
    (do (← Ell2.new toyM2 ⟨3, ⟨7⟩⟩).map ⟨1, ⟨7⟩⟩) = R.panic .notValidPoint := by
  refine ⟨⟨by norm_num, by norm_num, rfl, ⟨rfl, by decide, by decide⟩, ⟨rfl, by decide, by decide⟩,
    ⟨rfl, by decide, by decide⟩, by decide⟩, by decide, ?_, by decide +kernel⟩
  rintro ⟨r, hr⟩; revert r; decide

/-- `y² = x³ + 4 x² + x` over GF(7), for the next refutation. -/
def toyM4 : Curve := ⟨⟨7⟩, ⟨4, ⟨7⟩⟩, ⟨1, ⟨7⟩⟩, ⟨1, ⟨7⟩⟩, 1, ⟨0, ⟨7⟩⟩, ⟨0, ⟨7⟩⟩, 1⟩

/-- `Ell2::new` accepts a square `Z`; then `map` panics on some input, even on a curve with `b = 1`. -/
theorem _root_.Redox.Props.C43_refuted_square_z : MCurve 7 toyM4 ∧ val 7 toyM4.b = 1 ∧
    Ell2.new toyM4 ⟨1, ⟨7⟩⟩ = R.ok ⟨toyM4, ⟨1, ⟨7⟩⟩, ⟨4, ⟨7⟩⟩, ⟨1, ⟨7⟩⟩⟩ ∧
    Ell2.map ⟨toyM4, ⟨1, ⟨7⟩⟩, ⟨4, ⟨7⟩⟩, ⟨1, ⟨7⟩⟩⟩ ⟨1, ⟨7⟩⟩ = R.panic .notValidPoint :=
  ⟨⟨by norm_num, by norm_num, rfl, ⟨rfl, by decide, by decide⟩, ⟨rfl, by decide, by decide⟩,
    ⟨rfl, by decide, by decide⟩, by decide⟩, by decide, by decide +kernel, by decide +kernel⟩

/-- The hypotheses of `C43_map_partial` are met, with both candidates occurring. -/
example : MCurve 7 Mo.toyMs ∧ val 7 Mo.toyMs.b = 1 ∧ (7 % 4 = 3 ∨ 7 % 8 = 5) ∧ ¬ IsSquare (val 7 ⟨3, ⟨7⟩⟩) ∧
    (do (← Ell2.new Mo.toyMs ⟨3, ⟨7⟩⟩).map ⟨1, ⟨7⟩⟩) = R.ok ⟨Mo.toyMs, ⟨⟨3, ⟨7⟩⟩, ⟨6, ⟨7⟩⟩, ⟨1, ⟨7⟩⟩⟩⟩ := by
  refine ⟨Mo.toyMs_curve, by decide, by decide, ?_, by decide +kernel⟩
  rintro ⟨r, hr⟩; revert r; decide

end montgomery

end Redox.Props.Map
