import Verif.Props.FieldParse

/-!
# C02: every element reachable through the API is canonical
-/

namespace Redox.Props

open Spec

/-- Elements a user can obtain by any finite history of public operations, on any number of fields whose moduli are
at least 2. A step is recorded only when the operation returned (did not panic). -/
inductive Reach : FpElt → Prop
  | elt (f : Fp) (n : ℤ) {x} : 2 ≤ f.p → f.elt n = R.ok x → Reach x
  | zero (f : Fp) {x} : 2 ≤ f.p → f.zero = R.ok x → Reach x
  | one (f : Fp) {x} : 2 ≤ f.p → f.one = R.ok x → Reach x
  | fromPrim (f : Fp) (n : ℤ) {x} : 2 ≤ f.p → f.fromPrim n = R.ok x → Reach x
  | fromStr (f : Fp) (s : List Byte) {x} : 2 ≤ f.p → f.fromStr s = R.ok x → Reach x
  | fromBytesBE (f : Fp) (bs : List Byte) {x} : 2 ≤ f.p → f.fromBytesBE bs = R.ok x → Reach x
  | fromBytesLE (f : Fp) (bs : List Byte) {x} : 2 ≤ f.p → f.fromBytesLE bs = R.ok x → Reach x
  | add {x y z} : Reach x → Reach y → x.add y = R.ok z → Reach z
  | sub {x y z} : Reach x → Reach y → x.sub y = R.ok z → Reach z
  | mul {x y z} : Reach x → Reach y → x.mul y = R.ok z → Reach z
  | div {x y z} : Reach x → Reach y → x.div y = R.ok z → Reach z
  | neg {x z} : Reach x → x.neg = R.ok z → Reach z
  | powU32 {x z} (e : ℕ) : Reach x → x.powU32 e = R.ok z → Reach z
  | powI32 {x z} (e : ℤ) : Reach x → x.powI32 e = R.ok z → Reach z
  | u32Div {x z} (k : ℕ) : Reach x → FpElt.u32Div k x = R.ok z → Reach z
  | powNat {x z} (e : ℕ) : Reach x → x.powNat e = R.ok z → Reach z
  | powInt {x z} (e : ℤ) : Reach x → x.powInt e = R.ok z → Reach z
  | sqrt {x z} : Reach x → x.sqrt = R.ok z → Reach z
  | cmov {x y} (b : Bool) : Reach x → Reach y → Reach (x.cmov y b)
  | setZero {x} : Reach x → Reach x.setZero
  | setOne {x} : Reach x → Reach x.setOne

/-- Well-formed: canonical in its own field, modulus at least 2. -/
def Good (x : FpElt) : Prop := 2 ≤ x.f.p ∧ Canon x.f.p x

theorem good_red {x z : FpElt} (h : 2 ≤ x.f.p) {n : ℤ} (hz : x.red n = R.ok z) : Good z := by
  have hp : (x.f.p : ℤ) ≠ 0 := by omega
  simp only [FpElt.red, Big.modFloor, if_neg hp, R.ok_bind, R.pure_eq, R.ok.injEq] at hz
  subst hz
  exact ⟨h, rfl, Int.fmod_nonneg_of_pos _ (by omega), Int.fmod_lt_of_pos _ (by omega)⟩

theorem good_elt {f : Fp} {z : FpElt} (h : 2 ≤ f.p) {n : ℤ} (hz : f.elt n = R.ok z) : Good z := by
  have hp : (f.p : ℤ) ≠ 0 := by omega
  simp only [Fp.elt, Big.modFloor, if_neg hp, R.ok_bind, R.pure_eq, R.ok.injEq] at hz
  subst hz
  exact ⟨h, rfl, Int.fmod_nonneg_of_pos _ (by omega), Int.fmod_lt_of_pos _ (by omega)⟩

theorem good_doIf {c : Bool} {b : R FpElt} {w : Panic} {z : FpElt} (h : doIfEq c b w = R.ok z) : b = R.ok z := by
  cases c
  · cases h
  · exact h

theorem good_powNat {x z : FpElt} (h : Good x) {e : ℕ} (hz : x.powNat e = R.ok z) : Good z := by
  simp only [FpElt.powNat] at hz
  obtain ⟨_, _, hz⟩ := R.bind_eq_ok.1 hz
  exact good_red h.1 hz

theorem good_powInt {x z : FpElt} (h : Good x) {e : ℤ} (hz : x.powInt e = R.ok z) : Good z := by
  simp only [FpElt.powInt] at hz
  obtain ⟨_, _, hz⟩ := R.bind_eq_ok.1 hz
  obtain ⟨_, _, hz⟩ := R.bind_eq_ok.1 hz
  exact good_powNat h hz

theorem good_mul {x y z : FpElt} (h : Good x) (hz : x.mul y = R.ok z) : Good z := good_red h.1 (good_doIf hz)

theorem good_sqrtWith {x z : FpElt} (h : Good x) {pre : SqrtPrecmp} (hz : x.sqrtWith pre = R.ok z) : Good z := by
  cases pre with
  | p3mod4 e => exact good_powInt h hz
  | p5mod8 e s =>
    simp only [FpElt.sqrtWith] at hz
    obtain ⟨t0, h0, hz⟩ := R.bind_eq_ok.1 hz
    obtain ⟨t1, _, hz⟩ := R.bind_eq_ok.1 hz
    obtain ⟨t2, h2, hz⟩ := R.bind_eq_ok.1 hz
    have g0 := good_powInt h h0
    have g2 : Good t2 := good_mul g0 h2
    simp only [R.pure_eq, R.ok.injEq, FpElt.cmov] at hz
    subst hz
    split <;> assumption
  | p9mod16 => cases hz
  | p1mod16 => cases hz

theorem fromStr_elt {f : Fp} {s : List Byte} {x : FpElt} (hx : f.fromStr s = R.ok x) : ∃ n, f.elt n = R.ok x := by
  unfold Fp.fromStr at hx
  split at hx
  · exact ⟨0, hx⟩
  · revert hx
    generalize (if s.head? = some 45 then ((-1 : Int), s.drop 1) else (1, s)) = ns
    intro hx
    simp only [R.pure_eq, R.ok_bind] at hx
    split at hx
    · obtain ⟨_, _, hx⟩ := R.bind_eq_ok.1 hx
      repeat' split at hx
      all_goals first | exact ⟨_, hx⟩ | cases hx
    · repeat' split at hx
      all_goals first | exact ⟨_, hx⟩ | cases hx

theorem Reach.good {x : FpElt} (h : Reach x) : Good x := by
  induction h with
  | elt f n h hx => exact good_elt h hx
  | zero f h hx => exact good_elt h hx
  | one f h hx => exact good_elt h hx
  | fromPrim f n h hx => exact good_elt h hx
  | fromStr f s h hx =>
    obtain ⟨n, hn⟩ := fromStr_elt hx
    exact good_elt h hn
  | fromBytesBE f bs h hx => exact good_elt h hx
  | fromBytesLE f bs h hx => exact good_elt h hx
  | add _ _ hz ihx _ => exact good_red ihx.1 (good_doIf hz)
  | sub _ _ hz ihx _ => exact good_red ihx.1 (good_doIf hz)
  | mul _ _ hz ihx _ => exact good_mul ihx hz
  | div _ _ hz ihx _ =>
    simp only [FpElt.div] at hz
    obtain ⟨_, _, hz⟩ := R.bind_eq_ok.1 hz
    exact good_mul ihx hz
  | neg _ hz ih => exact good_red ih.1 hz
  | powU32 e _ hz ih => exact good_mul ih (good_doIf hz)
  | powI32 e _ hz ih => exact good_powInt ih (good_doIf hz)
  | u32Div k _ hz ih => exact good_powInt ih (good_doIf hz)
  | powNat e _ hz ih => exact good_powNat ih hz
  | powInt e _ hz ih => exact good_powInt ih hz
  | sqrt _ hz ih =>
    simp only [FpElt.sqrt] at hz
    obtain ⟨_, _, hz⟩ := R.bind_eq_ok.1 hz
    exact good_sqrtWith ih hz
  | cmov b _ _ ihx ihy => cases b <;> assumption
  | setZero _ ih => exact ⟨ih.1, rfl, le_refl _, by have := ih.1; simp only [FpElt.setZero]; omega⟩
  | setOne _ ih => exact ⟨ih.1, rfl, by simp [FpElt.setOne], by have := ih.1; simp only [FpElt.setOne]; omega⟩

/-- C02. Every reachable element is canonical: it holds (and displays) the representative in `0 .. p-1`. -/
theorem C02_canonical (x : FpElt) (h : Reach x) :
    Canon x.f.p x ∧ x.display = R.ok (Big.showInt x.n) := by
  obtain ⟨hp, hc⟩ := h.good
  refine ⟨hc, ?_⟩
  have h0 : x.f.p ≠ 0 := by omega
  simp [FpElt.display, Big.modFloor, h0, Int.fmod_eq_emod_of_nonneg, Int.emod_eq_of_lt hc.2.1 hc.2.2]

/-- C02, consequence: for reachable elements of one field, `==`, denoting the same residue, and printing the same text
are equivalent. -/
theorem C02_eq (x y : FpElt) (hx : Reach x) (hy : Reach y) (hf : x.f = y.f) :
    (x = y ↔ val x.f.p x = val x.f.p y) ∧ (x = y ↔ x.display = y.display) := by
  obtain ⟨hp, hc⟩ := hx.good
  obtain ⟨-, hc'⟩ := hy.good
  rw [← hf] at hc'
  haveI : NeZero x.f.p := ⟨by omega⟩
  refine ⟨⟨fun h => by rw [h], fun h => ?_⟩, ⟨fun h => by rw [h], fun h => ?_⟩⟩
  · rw [hc.eq_el, hc'.eq_el, h]
  · obtain ⟨s, hs, hs'⟩ := C12_display_parse x.f.p (by omega) x hc
    obtain ⟨t, ht, ht'⟩ := C12_display_parse x.f.p (by omega) y hc'
    rw [hs, ht, R.ok.injEq] at h
    rw [h, ht', R.ok.injEq] at hs'
    exact hs'.symm

/-- Non-vacuity: an element with a history of several operations, `(3 - 5)² / 4 = 1` in GF(7). -/
example : ∃ x, Reach x ∧ x = ⟨1, ⟨7⟩⟩ := by
  have h3 : Reach ⟨3, ⟨7⟩⟩ := Reach.elt ⟨7⟩ 10 (by decide) (by decide +kernel)
  have h5 : Reach ⟨5, ⟨7⟩⟩ := Reach.fromStr ⟨7⟩ (ascii! "-0x2") (by decide) (by decide +kernel)
  have h4 : Reach ⟨4, ⟨7⟩⟩ := Reach.fromBytesBE ⟨7⟩ [1, 7] (by decide) (by decide +kernel)
  have hs : Reach ⟨5, ⟨7⟩⟩ := Reach.sub h3 h5 (by decide +kernel)
  have hq : Reach ⟨4, ⟨7⟩⟩ := Reach.powU32 2 hs (by decide +kernel)
  exact ⟨_, Reach.div hq h4 (by decide +kernel), rfl⟩

end Redox.Props
