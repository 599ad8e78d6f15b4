import Verif.Witness.Base
import Verif.Props.ActionProps
import Verif.Props.BirationalProps
import Verif.Props.BlindProps
import Verif.Props.CofVerify
import Verif.Props.EdwCodec
import Verif.Props.EdwEll2Fibres
import Verif.Props.EdwIncomplete
import Verif.Props.EdwMapProps
import Verif.Props.EdwPoints
import Verif.Props.EqProps
import Verif.Props.FlowProps
import Verif.Props.Foreign
import Verif.Props.InstanceProps
import Verif.Props.MapNewProps
import Verif.Props.NamedMaps
import Verif.Props.Normalize
import Verif.Props.ParamsProps
import Verif.Props.Subgroup
import Verif.Props.Threshold
import Verif.Props.TraceProps
import Verif.Props.Validated

/-! # Every property theorem with hypotheses, applied to concrete values: edwards -/

set_option maxRecDepth 100000

namespace Redox.Witness

open Redox Redox.Spec Redox.Props Redox.Inst Redox.Props.Inst

/-! ## Values used below -/

instance : ECurve curve25519_p Bir.map25519.e0 := edwards25519_valid.curve

theorem two_nonsquare' : ¬ IsSquare (val curve25519_p ⟨2, ⟨curve25519_p⟩⟩) := by
  have := NoRoot.not_isSquare_of_pow (p := curve25519_p) 2 (by decide +kernel) (by decide +kernel)
  simpa [Spec.val] using this

theorem ell2_25519 : Edwards.Ell2.new Bir.map25519.e0 ⟨2, ⟨curve25519_p⟩⟩ (some Bir.map25519.toRationalMap) =
    R.ok ⟨Bir.map25519.toRationalMap, ⟨curve25519, ⟨2, ⟨curve25519_p⟩⟩, ⟨486662, ⟨curve25519_p⟩⟩, ⟨1, ⟨curve25519_p⟩⟩⟩⟩ := by
  have h1 : Montgomery.Ell2.new curve25519 ⟨2, ⟨curve25519_p⟩⟩ =
    R.ok ⟨curve25519, ⟨2, ⟨curve25519_p⟩⟩, ⟨486662, ⟨curve25519_p⟩⟩, ⟨1, ⟨curve25519_p⟩⟩⟩ := by decide +kernel
  simp [Edwards.Ell2.new, Ed2Mt25519.toRationalMap, Bir.map25519, h1]

/-- What decoding the encoded generator returns. -/
def eD : Edwards.Point := okOr eG (do Flow.unwrap (edwards25519.decode (← eG.encode true)))

theorem eG_decode : edwards25519.decode (okGet (eG.encode true) (by decide +kernel)) = R.ok (.ok eD) := by decide +kernel

/-- The point `(0, -1)` of edwards25519. -/
def eT : Edwards.Point :=
  ⟨edwards25519, ⟨⟨0, ⟨curve25519_p⟩⟩, ⟨(curve25519_p : ℤ) - 1, ⟨curve25519_p⟩⟩, ⟨0, ⟨curve25519_p⟩⟩, ⟨1, ⟨curve25519_p⟩⟩⟩⟩

theorem eT_den : EDenotes curve25519_p edwards25519 eT (eTwo curve25519_p edwards25519) :=
  ⟨rfl, ⟨rfl, by decide +kernel, by decide +kernel⟩, ⟨rfl, by decide +kernel, by decide +kernel⟩,
    ⟨rfl, by decide +kernel, by decide +kernel⟩, ⟨rfl, by decide +kernel, by decide +kernel⟩, by decide +kernel,
    by simp [eT, eTwo, Spec.val], by simp [eT, eTwo, Spec.val], by simp [eT, eTwo, Spec.val]⟩

theorem ne_two {P : Edwards.Point} {A : eGroup curve25519_p edwards25519} (h : EDenotes curve25519_p edwards25519 P A)
    (h0 : val curve25519_p P.c.x ≠ 0) : A ≠ eTwo curve25519_p edwards25519 := by
  rintro rfl
  exact h0 (by rw [h.2.2.2.2.2.2.1]; simp [eTwo])

theorem eL_ret : ∃ S, eG.add eH = R.ok S ∧ EDenotes curve25519_p edwards25519 S (eg + (eg + eg)) :=
  (C36_group_law curve25519_p edwards25519 eG eH eg (eg + eg) eG_den eH_den).1

/-- Three times the generator. -/
def eL : Edwards.Point := okOr eG (eG.add eH)

theorem eL_den : EDenotes curve25519_p edwards25519 eL (eg + (eg + eg)) := by
  obtain ⟨S, hS, hd⟩ := eL_ret
  rwa [eL, hS]

theorem mG_add_mH (S : Montgomery.Point) (h : mG.add mH = R.ok S) (hx : S.c.x.isZero = true) : S.c.y.isZero = true → S.c.z.isOne = true := by
  have h1 : (mG.add mH) = R.ok (okOr mG (mG.add mH)) := by decide +kernel
  have h2 : (okOr mG (mG.add mH)).c.x.isZero = false := by decide +kernel
  rw [h1] at h
  cases h
  rw [h2] at hx
  cases hx

/-- A representative `(0 : 0 : 2)` of the point `(0, 0)` of curve25519. -/
def mT : Montgomery.Point := ⟨curve25519, ⟨⟨0, ⟨curve25519_p⟩⟩, ⟨0, ⟨curve25519_p⟩⟩, ⟨2, ⟨curve25519_p⟩⟩⟩⟩

theorem mT_ns : (mGroup curve25519_p curve25519).Nonsingular 0 0 := (Mont.nonsingular_iff _ _ _).2 (by simp)

theorem mT_den : MDenotes curve25519_p curve25519 mT (.some 0 0 mT_ns) :=
  ⟨rfl, ⟨rfl, by decide +kernel, by decide +kernel⟩, ⟨rfl, by decide +kernel, by decide +kernel⟩,
    ⟨rfl, by decide +kernel, by decide +kernel⟩, by decide +kernel, by simp [mT, Spec.val], by simp [mT, Spec.val]⟩

/-! ## Applications -/

example := @C36_group_law curve25519_p _ edwards25519 _ eG eH eg (eg + eg) (by meets) (by meets)

example := @C36_laws curve25519_p _ edwards25519 _ eG eH eG (by meets) (by meets) (by meets)

example := @C36_eq curve25519_p _ edwards25519 eG eH eg (eg + eg) (by meets) (by meets)

example := @C37_mul_partial curve25519_p _ edwards25519 _ (by meets) .debug eG eg (by meets) ⟨5, edwards25519.r⟩
  (by meets) (by meets)

example := @C37_refuted_zero curve25519_p _ edwards25519 edwards25519_valid.curve.params eG (by meets)

example := @C37_integer_partial curve25519_p _ edwards25519 _ (by meets) (by meets) .debug eG eg (by meets) (by meets) 5
  (by meets)

example := @C38_exact_partial curve25519_p _ edwards25519 _ eG eg (by meets)

example := @C39_roundtrip curve25519_p _ edwards25519 _ (by meets) eG eg (by meets) true

example := @C39_injective curve25519_p _ edwards25519 _ (by meets) eG eH eg (eg + eg) (by meets) (by meets) true false

example := @C39_canonical curve25519_p _ edwards25519 _ (by meets) (okGet (eG.encode true) (by decide +kernel)) eD
  eG_decode true

example := @C40_decode_partial curve25519_p _ edwards25519 edwards25519_valid.curve.params [2, 7, 1]

example := @C40_panics_iff curve25519_p _ edwards25519 _ (by meets) [2, 7, 1]

example := @C44_birational curve25519_p _ Bir.map25519 _ Bir.map25519_ok (by meets) ⟨2, ⟨curve25519_p⟩⟩
  ⟨9, ⟨curve25519_p⟩⟩ (by meets) two_nonsquare' (by meets)
  (Edwards.Ell2.mk Bir.map25519.toRationalMap ⟨curve25519, ⟨2, ⟨curve25519_p⟩⟩, ⟨486662, ⟨curve25519_p⟩⟩, ⟨1, ⟨curve25519_p⟩⟩⟩)
  ell2_25519

example := @C47_isomorphism_partial curve25519_p _ Bir.map25519 _ Bir.map25519_ok

example := @C47_no_panic curve25519_p _ Bir.map25519 _ Bir.map25519_ok

example := @C47_roundtrip_partial curve25519_p _ Bir.map25519 _ Bir.map25519_ok

example := @C47_push_hom_partial curve25519_p _ Bir.map25519 _ Bir.map25519_ok curve25519_valid.complete eG eH eg
  (eg + eg) eG_den eH_den (ne_two eG_den (by decide +kernel)) (ne_two eH_den (by decide +kernel))
  (ne_two eL_den (by decide +kernel))

example := @C47_pull_hom_partial curve25519_p _ Bir.map25519 _ Bir.map25519_ok curve25519_valid.complete mG mH mg
  (mg + mg) mG_den mH_den (by meets) (by meets) mG_add_mH

example := @C47_refuted_push curve25519_p _ Bir.map25519 _ Bir.map25519_ok eT eT_den

example := @C47_refuted_pull curve25519_p _ Bir.map25519 _ Bir.map25519_ok mT mT_ns mT_den (by meets)

example := @C47_refuted_hom curve25519_p _ Bir.map25519 _ Bir.map25519_ok curve25519_valid.complete eG eT eg eG_den
  eT_den eg_ne (ne_two eG_den (by decide +kernel))

example := @C51_edwards curve25519_p _ edwards25519 (by meets) .debug 5 (-8) (by meets)

example := @C52_edwards curve25519_p _ edwards25519 (by meets) _ .debug eG eg (by meets) (by meets)
  (.sub (.mul 5 .generator) (.add .generator .identity))
  (Or.inl ⟨⟨not_dvd_of (by decide +kernel), trivial⟩, trivial, trivial⟩)

example := @C54_history_any_partial curve25519_p _ edwards25519 edwards25519_valid.curve.params eG
  (.generator ⟨rfl, by decide +kernel, by decide +kernel⟩ ⟨rfl, by decide +kernel, by decide +kernel⟩ eG_eq)

example := @C54_new_point curve25519_p _ edwards25519 edwards25519_valid.curve.params ⟨5, ⟨curve25519_p⟩⟩
  ⟨7, ⟨curve25519_p⟩⟩ (by meets) (by meets)

example := @C54_history curve25519_p _ edwards25519 _ eG
  (.generator ⟨rfl, by decide +kernel, by decide +kernel⟩ ⟨rfl, by decide +kernel, by decide +kernel⟩ eG_eq)

example := @C54_points curve25519_p _ edwards25519 _ eG (by meets) (by meets) (by meets) (by meets) (by meets)

example := @C54_degenerate curve25519_p _ edwards25519 edwards25519_valid.curve.params eG (by meets) (by meets)
  (by meets) (by meets) (by meets)

example := @C65_hash_edwards_partial (EDWARDS25519, 2 ^ 255 - 19, map25519, []) (by simp)

example := @C72_edwards_partial curve25519_p curve25519_p _ _ edwards25519 edwards25519 eG eH eg (eg + eg) (by meets)
  (by meets)

example := @C72_edwards_equiv curve25519_p _ edwards25519 eG eH eG (by meets) (by meets) (by meets)

example := @C72_edwards_congr curve25519_p _ edwards25519 _ (by meets) (by meets) eG eG eH eK (by meets) (by meets)
  (by meets) (by meets) (by meets) (by meets)

example := @C75_generator_edwards EDWARDS25519_PARAMS edwards25519 (by meets)

example := @C76_fibres curve25519_p _ Bir.map25519 _ Bir.map25519_ok (by meets) ⟨2, ⟨curve25519_p⟩⟩ ⟨9, ⟨curve25519_p⟩⟩
  ⟨14, ⟨curve25519_p⟩⟩ (by meets) two_nonsquare' (by meets) (by meets)
  (Edwards.Ell2.mk Bir.map25519.toRationalMap ⟨curve25519, ⟨2, ⟨curve25519_p⟩⟩, ⟨486662, ⟨curve25519_p⟩⟩, ⟨1, ⟨curve25519_p⟩⟩⟩)
  ell2_25519

example := @C77_edwards curve25519_p _ edwards25519 (by meets) (by meets) .debug (-4) 9 (by meets) (by meets) true false

example := @C78_edwards_partial curve25519_p _ edwards25519 (by meets) .debug 3 5 7 11 (by meets)

example := @C79_edwards_partial curve25519_p _ edwards25519 (by meets) (by meets) .debug 3 5 19 23 (by meets) (by meets)
  (by meets)

example := @C79_edwards_accepts_partial curve25519_p _ edwards25519 (by meets) (by meets) .debug 3 5 19 23 11 (by meets)
  (by meets)

example := @C82_ell2_some curve25519_p _ Bir.map25519.toRationalMap edwards25519 Bir.map25519.e0 Bir.map25519.e1 rfl rfl
  Bir.map25519_ok.e1 ⟨2, ⟨curve25519_p⟩⟩

example := @C83_edwards_exact curve25519_p _ edwards25519 (by meets) _ .debug eG eg (by meets) 5 13

example := @C83_edwards_laws curve25519_p _ edwards25519 (by meets) _ (by meets) .debug eG eg (by meets)

example := @C83_edwards_order_two curve25519_p _ edwards25519 (by meets) _ (by meets)

example := @C85_total curve25519_p _ edwards25519 edwards25519_valid.curve.params eG eH (by meets) (by meets) (by meets)
  (by meets) (by meets) (by meets) (by meets) (by meets) (by meets) (by meets) (by meets) (by meets)

example := @C85_add_partial curve25519_p _ edwards25519 edwards25519_valid.curve.params eG eH eg (eg + eg) (by meets)
  (by meets)

example := @C86_edwards curve25519_p _ edwards25519 (by meets) _ (by meets) (by meets) .debug eG eg (by meets)
  (by meets) (by meets) 5 11 (by meets) (by meets) true false

example := @C86_edwards_hiding curve25519_p _ edwards25519 (by meets) .debug 6 10 5 (by meets) (by meets) (by meets)

example := @C87_edwards curve25519_p _ edwards25519 (by meets) _ .debug eG eg (by meets) (by meets) (by meets) 3 17 5 13
  7 11 (by meets)

example := @C87_edwards_sound curve25519_p _ edwards25519 (by meets) _ .debug eG eg (by meets) (by meets) (by meets) 3 3
  5 5 7 26 8 29 (by meets) (by meets) (by meets)

example := @C87_edwards_complete curve25519_p _ edwards25519 (by meets) _ .debug eG eg (by meets) (by meets) (by meets)
  3 5 7 (by meets)

example := @C89_edwards_reveals .debug eG eH ⟨5, edwards25519.r⟩ ⟨6, edwards25519.r⟩ (by meets) (by meets) (by meets)
  (by meets) (okGet (Edwards.Point.mulT .debug eG ⟨5, edwards25519.r⟩) (by decide +kernel)).1
  (okGet (Edwards.Point.mulT .debug eH ⟨6, edwards25519.r⟩) (by decide +kernel)).1
  (okGet (Edwards.Point.mulT .debug eG ⟨5, edwards25519.r⟩) (by decide +kernel)).2
  (okGet (Edwards.Point.mulT .debug eH ⟨6, edwards25519.r⟩) (by decide +kernel)).2
  (okGet_eq (Edwards.Point.mulT .debug eG ⟨5, edwards25519.r⟩) (by decide +kernel))
  (okGet_eq (Edwards.Point.mulT .debug eH ⟨6, edwards25519.r⟩) (by decide +kernel))

example := @C90_edwards curve25519_p _ edwards25519 _ eG eg (by meets)

example := @C90_edwards_eq curve25519_p _ edwards25519 _ eG eH eg (eg + eg) (by meets) (by meets)

example := @C94_check_edwards curve25519_p _ edwards25519 eG (by meets) (by meets) (by meets) (by meets) (by meets)
  (by meets)

example := @C95_edwards edwards25519 (by meets)

example := @C96_edwards curve25519_p _ edwards25519 (by meets) _ (by meets) .debug eG eg (by meets) (by meets) [7, 11]
  [2, 3, 5] (by meets) (by meets) (by meets)

example := @C97_edwards curve25519_p _ edwards25519 (by meets) _ .debug [(5, eG, eg), (9, eH, eg + eg)]
  (by simp [eG_den, eH_den, eg_kill, eh_kill])
  (Or.inl (by simp only [List.forall_mem_cons]; exact ⟨not_dvd_of (by decide +kernel), not_dvd_of (by decide +kernel), by simp⟩))

example := @C99_edwards_order curve25519_p _ edwards25519 (by meets) _ eG eg (by meets)

example := @C99_edwards curve25519_p _ edwards25519 (by meets) _ .debug eG eg (by meets)

example := @C100_edwards_exact_partial curve25519_p _ edwards25519 (by meets) _ .debug eG eg (by meets) 5 (by meets)

example := @C103_edwards curve25519_p _ edwards25519 (by meets) _ (by meets) (by meets)

end Redox.Witness
