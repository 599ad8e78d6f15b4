import Verif.Props.EdwMapProps
import Verif.Props.IsogenyProps

/-!
# C82: which arguments the maps to curves that go through another curve accept
-/

set_option linter.unusedSectionVars false
set_option maxRecDepth 100000

namespace Redox.Props.MapNew

open Spec

section weierstrass
open Weierstrass WLink RCB

/-- C82: `SSWUAB0::new(e, z, iso)` succeeds exactly when `e` is the codomain of the isogeny, exactly one of the coefficients of
`e` is zero, and `z` is a valid parameter of the simplified SWU map for the domain (`C41_new`). Then `map` is that map followed
by the isogeny. In all other cases the constructor panics with "wrong input parameters". The isogeny is any implementation of the
trait. -/
theorem _root_.Redox.Props.C82_sswuab0 (p q : ℕ) [Fact p.Prime] [Fact q.Prime] (iso : Isogeny) (e d c : Curve) (he : WCurve p e)
    (hd : iso.domain = R.ok d) (hdc : WCurve q d) (hc : iso.codomain = R.ok c) (z : FpElt) (hz : Canon q z) :
    let a := val q d.a
    let b := val q d.b
    let Z := val q z
    let ok := e = c ∧ ((val p e.a = 0 ∧ val p e.b ≠ 0) ∨ (val p e.a ≠ 0 ∧ val p e.b = 0)) ∧
      (a ≠ 0 ∧ b ≠ 0 ∧ ¬ IsSquare Z ∧ Z ≠ -1 ∧ IsSquare (rhs a b (b / (Z * a))))
    (ok → ∃ M s, SSWUAB0.new e z iso = R.ok M ∧ SSWU.new d z = R.ok s ∧
      ∀ u, M.map u = (s.map u).bind iso.push) ∧
    (¬ ok → SSWUAB0.new e z iso = R.panic .wrongParams) := by
  intro a b Z ok
  have hp2 : Fact (2 < p) := ⟨by have := he.prime.two_le; have := he.odd; omega⟩
  have hza : e.a.isZero = decide (val p e.a = 0) := by rw [ea he, isZero_el, val_el]
  have hzb : e.b.isZero = decide (val p e.b = 0) := by rw [eb he, isZero_el, val_el]
  have hnew : SSWUAB0.new e z iso =
      if e = c ∧ ((val p e.a = 0 ∧ val p e.b ≠ 0) ∨ (val p e.a ≠ 0 ∧ val p e.b = 0)) then
        (SSWU.new d z).bind fun s => R.ok ⟨iso, s⟩ else R.panic .wrongParams := by
    simp only [SSWUAB0.new, SSWUAB0.verify, hc, hd, R.ok_bind, hza, hzb, R.pure_eq]
    generalize val p e.a = x
    generalize val p e.b = y
    by_cases h1 : e = c <;> by_cases h2 : x = 0 <;> by_cases h3 : y = 0 <;> simp [h1, h2, h3] <;> rfl
  obtain ⟨h1, h2⟩ := C41_new q d hdc z hz
  rw [hnew]
  refine ⟨fun ⟨h3, h4, h5⟩ => ?_, fun h => ?_⟩
  · obtain ⟨s, hs⟩ := h1 h5
    rw [if_pos ⟨h3, h4⟩, hs]
    exact ⟨⟨iso, s⟩, s, rfl, rfl, fun u => rfl⟩
  · split_ifs with h6
    · rw [h2 (fun h7 => h ⟨h6.1, h6.2, h7⟩)]
      rfl
    · rfl

end weierstrass

section edwards
open Edwards

/-- C82: `Ell2::new` on an Edwards curve, without a rational map, is not implemented: it panics. -/
theorem _root_.Redox.Props.C82_ell2_none (e : Curve) (z : FpElt) : Ell2.new e z none = R.panic .unimplemented := rfl

/-- C82: `Ell2::new(e, z, Some(r))` on an Edwards curve succeeds exactly when `e` is the domain of the rational map and the
coefficient `a` of the codomain is not zero. Then `map` is Elligator 2 on the codomain followed by `pull`. With another curve it
panics with "Domain of rational map is incompatible with curve", and with `a = 0` with "wrong input parameters". The rational map
is any implementation of the trait. -/
theorem _root_.Redox.Props.C82_ell2_some (q : ℕ) [Fact q.Prime] (r : RationalMap) (e d : Curve) (c : Montgomery.Curve)
    (hd : r.domain = R.ok d) (hc : r.codomain = R.ok c) (hcc : MCurve q c) (z : FpElt) :
    (e ≠ d → Ell2.new e z (some r) = R.panic .domainMismatch) ∧
    (e = d → val q c.a = 0 → Ell2.new e z (some r) = R.panic .wrongParams) ∧
    (e = d → val q c.a ≠ 0 → ∃ M m, Ell2.new e z (some r) = R.ok M ∧ Montgomery.Ell2.new c z = R.ok m ∧
      ∀ u, M.map u = (m.map u).bind r.pull) := by
  obtain ⟨h1, h2⟩ := C43_new q c hcc z
  refine ⟨fun h => ?_, fun h h0 => ?_, fun h h0 => ?_⟩
  · simp only [Ell2.new, hd, R.ok_bind, if_pos (Ne.symm h)]
  · simp only [Ell2.new, hd, hc, R.ok_bind, h, ne_eq, not_true, if_false, h2 h0]
    rfl
  · obtain ⟨m, hm⟩ := h1 h0
    refine ⟨⟨r, m⟩, m, ?_, hm, fun u => rfl⟩
    simp only [Ell2.new, hd, hc, R.ok_bind, h, ne_eq, not_true, if_false, hm, R.pure_eq]

end edwards

open Redox.Inst Weierstrass in
/-- The hypotheses are met: with the isogeny of the library secp256k1 and `z = -11` are accepted; its domain, which is not the
codomain, is refused, and so is `z = -1`. -/
example : (∃ M, SSWUAB0.new isoSecp256k1.e1 Isog.secpZ isoSecp256k1.toIsogeny = R.ok M) ∧
    SSWUAB0.new isoSecp256k1.e0 Isog.secpZ isoSecp256k1.toIsogeny = R.panic .wrongParams ∧
    SSWUAB0.new isoSecp256k1.e1 ⟨secp256k1_p - 1, ⟨secp256k1_p⟩⟩ isoSecp256k1.toIsogeny = R.panic .wrongParams := by
  have hz1 : Canon secp256k1_p Isog.secpZ := ⟨rfl, by decide +kernel, by decide +kernel⟩
  have hz2 : Canon secp256k1_p ⟨secp256k1_p - 1, ⟨secp256k1_p⟩⟩ := ⟨rfl, by decide +kernel, by decide +kernel⟩
  refine ⟨?_, ?_, ?_⟩
  · obtain ⟨m, z, M, hm, hz, -, hM⟩ := C45_new
    rw [isoSecp256k1_eq] at hm
    cases hm
    rw [show isoSecp256k1.e1.f.fromPrim (-11) = R.ok Isog.secpZ by decide +kernel] at hz
    cases hz
    exact ⟨M, hM⟩
  · exact (C82_sswuab0 secp256k1_p secp256k1_p isoSecp256k1.toIsogeny _ _ _ isoSecp256k1_ok.e0 rfl isoSecp256k1_ok.e0 rfl _ hz1).2
      fun h => absurd h.1 (by decide +kernel)
  · refine (C82_sswuab0 secp256k1_p secp256k1_p isoSecp256k1.toIsogeny _ _ _ isoSecp256k1_ok.e1 rfl isoSecp256k1_ok.e0 rfl _ hz2).2
      fun h => h.2.2.2.2.2.1 ?_
    simp [Spec.val]

open Redox.Inst Edwards in
/-- The hypotheses are met: the map of edwards25519 is accepted on edwards25519 and refused on edwards448. -/
example : (∃ M, Ell2.new edwards25519 ⟨2, ⟨curve25519_p⟩⟩ (some Bir.map25519.toRationalMap) = R.ok M) ∧
    Ell2.new edwards448 ⟨2, ⟨curve25519_p⟩⟩ (some Bir.map25519.toRationalMap) = R.panic .domainMismatch := by
  obtain ⟨h1, -, h3⟩ := C82_ell2_some curve25519_p Bir.map25519.toRationalMap edwards25519 Bir.map25519.e0 Bir.map25519.e1 rfl rfl
    Bir.map25519_ok.e1 ⟨2, ⟨curve25519_p⟩⟩
  obtain ⟨h4, -, -⟩ := C82_ell2_some curve25519_p Bir.map25519.toRationalMap edwards448 Bir.map25519.e0 Bir.map25519.e1 rfl rfl
    Bir.map25519_ok.e1 ⟨2, ⟨curve25519_p⟩⟩
  refine ⟨?_, h4 (by decide +kernel)⟩
  obtain ⟨M, m, hM, -⟩ := h3 rfl (by
    intro h
    rw [show Bir.map25519.e1.a = ⟨486662, ⟨curve25519_p⟩⟩ from rfl] at h
    have h' : ((486662 : ℕ) : ZMod curve25519_p) = 0 := by simpa [Spec.val] using h
    rw [ZMod.natCast_eq_zero_iff] at h'
    revert h'
    decide +kernel)
  exact ⟨M, hM⟩

end Redox.Props.MapNew
