import Verif.Witness.Base
import Verif.Props.ActionProps
import Verif.Props.BlindProps
import Verif.Props.CofVerify
import Verif.Props.Ell2Exact
import Verif.Props.Ell2Fibres
import Verif.Props.EqProps
import Verif.Props.FlowProps
import Verif.Props.Foreign
import Verif.Props.InstanceProps
import Verif.Props.MapProps
import Verif.Props.MontB
import Verif.Props.MontCodec
import Verif.Props.MontPoints
import Verif.Props.MulExact
import Verif.Props.Normalize
import Verif.Props.ParamsProps
import Verif.Props.Sec1
import Verif.Props.Subgroup
import Verif.Props.Threshold
import Verif.Props.TraceProps
import Verif.Props.TwoTorsion
import Verif.Props.Validated

/-! # Every property theorem with hypotheses, applied to concrete values: montgomery -/

set_option maxRecDepth 100000

namespace Redox.Witness

open Redox Redox.Spec Redox.Props Redox.Inst Redox.Props.Inst

/-! ## Values used below -/

theorem mG_z : val curve25519_p mG.c.z ≠ 0 := by decide +kernel

theorem mG_x : val curve25519_p mG.c.x = val curve25519_p curve25519.gx * val curve25519_p mG.c.z := by
  have h1 : val curve25519_p mG.c.z = 1 := by decide +kernel
  rw [h1, mul_one]; rfl

theorem mG_y : val curve25519_p mG.c.y = val curve25519_p curve25519.gy * val curve25519_p mG.c.z := by
  have h1 : val curve25519_p mG.c.z = 1 := by decide +kernel
  rw [h1, mul_one]; rfl

theorem mg_on : val curve25519_p curve25519.b * val curve25519_p curve25519.gy ^ 2 =
    val curve25519_p curve25519.gx ^ 3 + val curve25519_p curve25519.a * val curve25519_p curve25519.gx ^ 2 + val curve25519_p curve25519.gx := by
  rw [curve25519_valid.b_one, one_mul]
  exact ((Mont.nonsingular_iff _ _ _).1 mg_some.choose).1

theorem mg_sec1 : IsSec1 curve25519.f.sizeBytes (val curve25519_p curve25519.gx) (val curve25519_p curve25519.gy) true
    (okGet (mG.encode true) (by decide +kernel)) :=
  ⟨okGet (do return (← mG.encode true).tail) (by decide +kernel), okGet (do return (← mG.encode false).drop 33) (by decide +kernel),
    by decide +kernel⟩

theorem two_nonsquare : ¬ IsSquare (val curve25519_p ⟨2, ⟨curve25519_p⟩⟩) := by
  have := NoRoot.not_isSquare_of_pow (p := curve25519_p) 2 (by decide +kernel) (by decide +kernel)
  simpa [Spec.val] using this

theorem four_square : IsSquare (val curve25519_p ⟨4, ⟨curve25519_p⟩⟩) := ⟨2, by simp [Spec.val]; norm_num⟩

theorem b_sq : val curve25519_p curve25519.b ^ 2 = 1 := by rw [curve25519_valid.b_one, one_pow]

theorem toyM2_curve : MCurve 7 Map.toyM2 :=
  ⟨by norm_num, by norm_num, rfl, ⟨rfl, by decide, by decide⟩, ⟨rfl, by decide, by decide⟩, ⟨rfl, by decide, by decide⟩, by decide⟩

theorem three_nonsquare : ¬ IsSquare (val 7 ⟨3, ⟨7⟩⟩) := by
  rintro ⟨r, hr⟩; revert r; decide

theorem toyM_two : (mGroup 7 Mo.toyM).Nonsingular 0 0 := (Mont.nonsingular_iff _ _ _).2 (by decide)

theorem toyM_two_den : MDenotes 7 Mo.toyM ⟨Mo.toyM, ⟨⟨0, ⟨7⟩⟩, ⟨0, ⟨7⟩⟩, ⟨1, ⟨7⟩⟩⟩⟩ (.some 0 0 toyM_two) :=
  ⟨rfl, ⟨rfl, by decide, by decide⟩, ⟨rfl, by decide, by decide⟩, ⟨rfl, by decide, by decide⟩, by decide, by decide, by decide⟩

/-- The toy curve with `s = 0`. -/
def toyM0 : Montgomery.Curve := { Mo.toyM with s := ⟨0, ⟨7⟩⟩ }

theorem toyM0_curve : MCurve 7 toyM0 :=
  ⟨by norm_num, by norm_num, rfl, ⟨rfl, by decide, by decide⟩, ⟨rfl, by decide, by decide⟩, ⟨rfl, by decide, by decide⟩, by decide⟩

theorem toyM0_gen : (mGroup 7 toyM0).Nonsingular 3 3 := (Mont.nonsingular_iff _ _ _).2 (by decide)

theorem toyM0_gen_den : MDenotes 7 toyM0 ⟨toyM0, ⟨⟨3, ⟨7⟩⟩, ⟨3, ⟨7⟩⟩, ⟨1, ⟨7⟩⟩⟩⟩ (.some 3 3 toyM0_gen) :=
  ⟨rfl, ⟨rfl, by decide, by decide⟩, ⟨rfl, by decide, by decide⟩, ⟨rfl, by decide, by decide⟩, by decide, by decide, by decide⟩

/-! ## Applications -/

example := @C32_double_iff 7 _ Mo.toyMb Mo.toyMb_curve ⟨Mo.toyMb, ⟨⟨4, ⟨7⟩⟩, ⟨2, ⟨7⟩⟩, ⟨1, ⟨7⟩⟩⟩⟩ (by meets) (by meets)
  (by meets) (by meets) 4 2 _ _ _ (by decide) (by decide) (by decide) (by decide) (by decide) rfl rfl rfl

example := @C32_group_law_partial curve25519_p _ curve25519 (by meets) (by meets) (by meets) mG mH mg (mg + mg)
  (by meets) (by meets)

example := @C32_add_exact_partial curve25519_p _ curve25519 (by meets) (by meets) mG mH mg (mg + mg) (by meets) (by meets)

example := @C32_laws_partial curve25519_p _ curve25519 (by meets) (by meets) (by meets) mG mH mG (by meets) (by meets)
  (by meets)

example := @C32_eq curve25519_p _ curve25519 mG mH mg (mg + mg) (by meets) (by meets)

example := @C33_mul_partial curve25519_p _ curve25519 (by meets) (by meets) (by meets) (by meets) .debug mG mg
  (by meets) ⟨5, curve25519.r⟩ (by meets) (by meets)

example := @C33_refuted_zero curve25519_p _ curve25519 (by meets) mG (by meets)

example := @C33_integer_partial curve25519_p _ curve25519 (by meets) (by meets) (by meets) (by meets) (by meets) .debug
  mG mg (by meets) (by meets) 5 (by meets)

example := @C34_roundtrip_partial curve25519_p _ curve25519 (by meets) (by meets) (by meets) mG mg (by meets) (by meets) true

example := @C34_canonical_partial curve25519_p _ curve25519 (by meets) true mG mH mg (mg + mg) (by meets) (by meets)

example := @C34_refuted_identity curve25519_p _ curve25519 (by meets) (by meets) true

example := @C35_decode_partial curve25519_p _ curve25519 (by meets) [2, 7, 1]

example := @C35_panics_iff curve25519_p _ curve25519 (by meets) (by meets) [2, 7, 1]

example := @C43_any_z curve25519_p _ curve25519 (by meets) b_sq (by meets) ⟨2, ⟨curve25519_p⟩⟩ ⟨9, ⟨curve25519_p⟩⟩
  (by meets) (by meets) (okGet (Montgomery.Ell2.new curve25519 ⟨2, ⟨curve25519_p⟩⟩) (by decide +kernel)) (okGet_eq _ _)

example := @C43_square_z curve25519_p _ curve25519 (by meets) b_sq (by meets) ⟨4, ⟨curve25519_p⟩⟩ ⟨9, ⟨curve25519_p⟩⟩
  (by meets) four_square (by meets) (okGet (Montgomery.Ell2.new curve25519 ⟨4, ⟨curve25519_p⟩⟩) (by decide +kernel))
  (okGet_eq _ _)

example := @C43_refuted_b_ends 7 _ Map.toyM2 toyM2_curve (by meets) (by meets) ⟨3, ⟨7⟩⟩ ⟨0, ⟨7⟩⟩ (by meets) (by meets)
  (by decide) (okGet (Montgomery.Ell2.new Map.toyM2 ⟨3, ⟨7⟩⟩) (by decide +kernel)) (okGet_eq _ _)

example := @C43_new curve25519_p _ curve25519 (by meets) ⟨2, ⟨curve25519_p⟩⟩

example := @C43_map_partial curve25519_p _ curve25519 (by meets) b_sq (by meets) ⟨2, ⟨curve25519_p⟩⟩ ⟨9, ⟨curve25519_p⟩⟩
  (by meets) two_nonsquare (by meets) (okGet (Montgomery.Ell2.new curve25519 ⟨2, ⟨curve25519_p⟩⟩) (by decide +kernel))
  (okGet_eq _ _)

example := @C43_group_partial curve25519_p _ curve25519 (by meets) (by meets) (by meets) ⟨2, ⟨curve25519_p⟩⟩
  ⟨9, ⟨curve25519_p⟩⟩ (by meets) two_nonsquare (by meets)
  (okGet (Montgomery.Ell2.new curve25519 ⟨2, ⟨curve25519_p⟩⟩) (by decide +kernel)) (okGet_eq _ _)

example := @C43_refuted_b 7 _ Map.toyM2 toyM2_curve (by meets) (by meets) ⟨3, ⟨7⟩⟩ ⟨1, ⟨7⟩⟩ (by meets) three_nonsquare
  (by meets) (by meets) (by meets) (okGet (Montgomery.Ell2.new Map.toyM2 ⟨3, ⟨7⟩⟩) (by decide +kernel)) (okGet_eq _ _)

example := @C51_montgomery curve25519_p _ curve25519 (by meets) .debug 5 (-8) (by meets)

example := @C52_montgomery curve25519_p _ curve25519 (by meets) .debug mG mg (by meets) (by meets)
  (.sub (.mul 5 .generator) (.add .generator .identity))
  (Or.inl ⟨⟨not_dvd_of (by decide +kernel), trivial⟩, trivial, trivial⟩)

example := @C53_new_point curve25519_p _ curve25519 (by meets) ⟨5, ⟨curve25519_p⟩⟩ ⟨7, ⟨curve25519_p⟩⟩ (by meets) (by meets)

example := @C53_history curve25519_p _ curve25519 (by meets) mG
  (.generator ⟨rfl, by decide +kernel, by decide +kernel⟩ ⟨rfl, by decide +kernel, by decide +kernel⟩ mG_eq)

example := @C53_points curve25519_p _ curve25519 (by meets) (by meets) mG (by meets) (by meets) (by meets) (by meets)

example := @C53_normalize_identity curve25519_p _ curve25519 (by meets)

example := @C70_fibres curve25519_p _ curve25519 (by meets) (by meets) (by meets) ⟨2, ⟨curve25519_p⟩⟩
  ⟨9, ⟨curve25519_p⟩⟩ ⟨14, ⟨curve25519_p⟩⟩ (by meets) two_nonsquare (by meets) (by meets)
  (okGet (Montgomery.Ell2.new curve25519 ⟨2, ⟨curve25519_p⟩⟩) (by decide +kernel)) (okGet_eq _ _)

example := @C70_image curve25519_p _ curve25519 (by meets) (by meets) (by meets) ⟨2, ⟨curve25519_p⟩⟩ (by meets)
  two_nonsquare (okGet (Montgomery.Ell2.new curve25519 ⟨2, ⟨curve25519_p⟩⟩) (by decide +kernel)) (okGet_eq _ _)

example := @C72_montgomery_partial curve25519_p curve25519_p _ _ curve25519 curve25519 mG mH mg (mg + mg) (by meets)
  (by meets)

example := @C72_montgomery_equiv curve25519_p _ curve25519 mG mH mG (by meets) (by meets) (by meets)

example := @C72_montgomery_congr curve25519_p _ curve25519 (by meets) (by meets) (by meets) (by meets) mG mG mH mK
  (by meets) (by meets) (by meets) (by meets) (by meets) (by meets)

example := @C75_generator_montgomery CURVE25519_PARAMS curve25519 (by meets)

example := @C77_montgomery curve25519_p _ curve25519 (by meets) (by meets) .debug (-4) 9 (by meets) (by meets) true false

example := @C78_montgomery_partial curve25519_p _ curve25519 (by meets) .debug 3 5 7 11 (by meets)

example := @C79_montgomery_partial curve25519_p _ curve25519 (by meets) (by meets) .debug 3 5 19 23 (by meets)
  (by meets) (by meets)

example := @C79_montgomery_accepts_partial curve25519_p _ curve25519 (by meets) (by meets) .debug 3 5 19 23 11
  (by meets) (by meets)

example := @C83_montgomery_exact curve25519_p _ curve25519 (by meets) .debug mG mg (by meets) 5 13

example := @C83_montgomery_laws curve25519_p _ curve25519 (by meets) (by meets) .debug mG mg (by meets)

example := @C83_montgomery_order_two curve25519_p _ curve25519 (by meets) (by meets)

example := @C86_montgomery curve25519_p _ curve25519 (by meets) (by meets) (by meets) .debug mG mg (by meets) (by meets)
  (by meets) 5 11 (by meets) (by meets) true false

example := @C86_montgomery_hiding curve25519_p _ curve25519 (by meets) .debug 6 10 5 (by meets) (by meets) (by meets)

example := @C87_montgomery curve25519_p _ curve25519 (by meets) .debug mG mg (by meets) (by meets) (by meets) 3 17 5 13
  7 11 (by meets)

example := @C87_montgomery_sound curve25519_p _ curve25519 (by meets) .debug mG mg (by meets) (by meets) (by meets) 3 3
  5 5 7 26 8 29 (by meets) (by meets) (by meets)

example := @C87_montgomery_complete curve25519_p _ curve25519 (by meets) .debug mG mg (by meets) (by meets) (by meets) 3
  5 7 (by meets)

example := @C89_montgomery_reveals .debug mG mH ⟨5, curve25519.r⟩ ⟨6, curve25519.r⟩ (by meets) (by meets) (by meets)
  (by meets) (okGet (Montgomery.Point.mulT .debug mG ⟨5, curve25519.r⟩) (by decide +kernel)).1
  (okGet (Montgomery.Point.mulT .debug mH ⟨6, curve25519.r⟩) (by decide +kernel)).1
  (okGet (Montgomery.Point.mulT .debug mG ⟨5, curve25519.r⟩) (by decide +kernel)).2
  (okGet (Montgomery.Point.mulT .debug mH ⟨6, curve25519.r⟩) (by decide +kernel)).2
  (okGet_eq (Montgomery.Point.mulT .debug mG ⟨5, curve25519.r⟩) (by decide +kernel))
  (okGet_eq (Montgomery.Point.mulT .debug mH ⟨6, curve25519.r⟩) (by decide +kernel))

example := @C90_montgomery curve25519_p _ curve25519 (by meets) mG (val curve25519_p curve25519.gx)
  (val curve25519_p curve25519.gy) mg_some.choose (mg_some.choose_spec ▸ mG_den)

example := @C90_montgomery_eq curve25519_p _ curve25519 (by meets) mG mH mg (mg + mg) (by meets) (by meets) (by meets)
  (by meets)

example := @C92_exact curve25519_p _ curve25519 (by meets) mG mg (by meets)

example := @C92_sound_partial 7 _ Mo.toyM Mo.toyM_curve ⟨Mo.toyM, ⟨⟨0, ⟨7⟩⟩, ⟨0, ⟨7⟩⟩, ⟨1, ⟨7⟩⟩⟩⟩ (.some 0 0 toyM_two)
  toyM_two_den (by meets)

example := @C92_normalised_partial curve25519_p _ curve25519 (by meets) mG mg (by meets)

example := @C94_check_montgomery curve25519_p _ curve25519 mG (by meets) (by meets) (by meets) (by meets) (by meets)

example := @C95_montgomery curve25519 (by meets)

example := @C96_montgomery curve25519_p _ curve25519 (by meets) (by meets) .debug mG mg (by meets) (by meets) [7, 11]
  [2, 3, 5] (by meets) (by meets) (by meets)

example := @C97_montgomery curve25519_p _ curve25519 (by meets) .debug [(5, mG, mg), (9, mH, mg + mg)]
  (by simp [mG_den, mH_den, mg_kill, mh_kill])
  (Or.inl (by simp only [List.forall_mem_cons]; exact ⟨not_dvd_of (by decide +kernel), not_dvd_of (by decide +kernel), by simp⟩))

example := @C98_montgomery_encode curve25519_p _ curve25519 (by meets) mG (by meets) (by meets) (by meets) (by meets)
  (val curve25519_p curve25519.gx) (val curve25519_p curve25519.gy) mG_z mG_x mG_y true

example := @C98_montgomery_decode curve25519_p _ curve25519 (by meets) (by meets) (val curve25519_p curve25519.gx)
  (val curve25519_p curve25519.gy) mg_on true (okGet (mG.encode true) (by decide +kernel)) mg_sec1

example := @C99_montgomery_order curve25519_p _ curve25519 (by meets) mG mg (by meets)

example := @C99_montgomery curve25519_p _ curve25519 (by meets) .debug mG mg (by meets)

example := @C100_montgomery_exact_partial curve25519_p _ curve25519 (by meets) .debug mG mg (by meets) 5 (by meets)

example := @C101_montgomery curve25519_p _ curve25519 (by meets) (by meets) (by meets) .debug mG mg (by meets) 5
  (by meets) (by meets)

example := @C101_montgomery_order 7 _ toyM0 toyM0_curve (by decide) (by decide) (by meets) .debug
  ⟨toyM0, ⟨⟨3, ⟨7⟩⟩, ⟨3, ⟨7⟩⟩, ⟨1, ⟨7⟩⟩⟩⟩ (.some 3 3 toyM0_gen) toyM0_gen_den

example := @C103_montgomery curve25519_p _ curve25519 (by meets) (by meets) (by meets)

end Redox.Witness
