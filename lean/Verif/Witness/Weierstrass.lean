import Verif.Witness.Base
import Verif.Props.ActionProps
import Verif.Props.BlindProps
import Verif.Props.CofVerify
import Verif.Props.EqProps
import Verif.Props.FlowProps
import Verif.Props.Foreign
import Verif.Props.InstanceProps
import Verif.Props.MapFibres
import Verif.Props.MapNewProps
import Verif.Props.MapProps
import Verif.Props.MulExact
import Verif.Props.Normalize
import Verif.Props.ParamsProps
import Verif.Props.Sec1
import Verif.Props.Subgroup
import Verif.Props.Threshold
import Verif.Props.TraceProps
import Verif.Props.Validated
import Verif.Props.WeierCodec
import Verif.Props.WeierPoints

/-! # Every property theorem with hypotheses, applied to concrete values: weierstrass -/

set_option maxRecDepth 100000

namespace Redox.Witness

open Redox Redox.Spec Redox.Props Redox.Inst Redox.Props.Inst

/-! ## Values used below -/

/-- The compressed generator of P-256, as published. -/
def genBytes : List Byte :=
  [3, 107, 23, 209, 242, 225, 44, 66, 71, 248, 188, 230, 229, 99, 164, 64, 242, 119, 3, 125, 129, 45, 235, 51, 160, 244, 161, 57, 69, 216,
    152, 194, 150]

theorem wG_z : val p256_p wG.c.z ≠ 0 := by decide +kernel

theorem wG_x : val p256_p wG.c.x = val p256_p p256.gx * val p256_p wG.c.z := by
  have h1 : val p256_p wG.c.z = 1 := by decide +kernel
  rw [h1, mul_one]; rfl

theorem wG_y : val p256_p wG.c.y = val p256_p p256.gy * val p256_p wG.c.z := by
  have h1 : val p256_p wG.c.z = 1 := by decide +kernel
  rw [h1, mul_one]; rfl

theorem wg_on : val p256_p p256.gy ^ 2 = val p256_p p256.gx ^ 3 + val p256_p p256.a * val p256_p p256.gx + val p256_p p256.b := by
  have h := (WeierstrassCurve.Affine.equation_iff _ _).1 wg_some.choose.1
  simpa [wGroup] using h

theorem wg_sec1 : IsSec1 p256.f.sizeBytes (val p256_p p256.gx) (val p256_p p256.gy) true genBytes :=
  ⟨genBytes.tail, okGet (do return (← wG.encode false).drop 33) (by decide +kernel), by decide +kernel⟩

theorem toyRoot_curve : WCurve 7 Map.toyRoot :=
  ⟨by norm_num, by norm_num, rfl, ⟨rfl, by decide, by decide⟩, ⟨rfl, by decide, by decide⟩, by decide⟩

theorem toyRoot_two : (wGroup 7 Map.toyRoot).Nonsingular 4 0 := by
  rw [WeierstrassCurve.Affine.nonsingular_iff, WeierstrassCurve.Affine.equation_iff]
  decide

/-! ## Applications -/

example := @C22_new_point p256_p _ p256 (by meets) ⟨5, ⟨p256_p⟩⟩ ⟨7, ⟨p256_p⟩⟩ (by meets) (by meets)

example := @C22_identity p256_p _ p256 (by meets)

example := @C22_history_partial p256_p _ p256 (by meets) wG
  (.generator ⟨rfl, by decide +kernel, by decide +kernel⟩ ⟨rfl, by decide +kernel, by decide +kernel⟩ wG_eq)

example := @C22_refuted_normalize p256_p _ p256 (by meets) (by meets)

example := @C22_points p256_p _ p256 (by meets) wG (by meets) (by meets) (by meets) (by meets)

example := @C23_group_law p256_p _ p256 (by meets) (by meets) wG wH wg (wg + wg) (by meets) (by meets)

example := @C23_laws p256_p _ p256 (by meets) (by meets) wG wH wG (by meets) (by meets) (by meets)

example := @C24_add_partial p256_p _ p256 (by meets) wG wH wg (wg + wg) (by meets) (by meets)

example := @C25_mul_partial p256_p _ p256 (by meets) (by meets) (by meets) .debug wG wg (by meets) ⟨5, p256.r⟩
  (by meets) (by meets)

example := @C25_mul_odd_order_partial p256_p _ p256 (by meets) (by meets) .debug wG wg (by meets) p256.r (by meets)
  wg_kill ⟨5, p256.r⟩ (by meets) (by meets)

example := @C25_refuted_zero p256_p _ p256 (by meets) wG (by meets)

example := @C26_integer p256_p _ p256 (by meets) (by meets) (by meets) (by meets) .debug wG wg (by meets) (by meets) 5
  (by meets)

example := @C26_action p256_p _ p256 (by meets) (by meets) (by meets) (by meets) .debug wG wg (by meets) (by meets) 5
  (-8) (by meets)

example := @C27_eq p256_p _ p256 wG wH wg (wg + wg) (by meets) (by meets)

example := @C27_unique p256_p _ p256 wG wg wg (by meets) (by meets)

example := @C27_is_zero p256_p _ p256 wG wg (by meets)

example := @C27_built p256_p _ p256 (by meets) (by meets) wG
  (.generator ⟨rfl, by decide +kernel, by decide +kernel⟩ ⟨rfl, by decide +kernel, by decide +kernel⟩ wG_eq)

example := @C28_roundtrip_partial p256_p _ p256 (by meets) (by meets) wG wg (by meets) (by meets) true

example := @C28_refuted_identity p256_p _ p256 (by meets) (by meets) (by meets)

example := @C29_decode_partial p256_p _ p256 (by meets) [2, 7, 1]

example := @C29_panics_iff p256_p _ p256 (by meets) (by meets) [2, 7, 1]

example := @C30_encode p256_p _ p256 (by meets) true wG wH wg (wg + wg) (by meets) (by meets)

example := @C30_decode p256_p _ p256 (by meets) (by meets) (by meets) genBytes wG (by meets)

example := @C41_new p256_p _ p256 (by meets) ⟨(p256_p : ℤ) - 10, ⟨p256_p⟩⟩ (by meets)

example := @C41_map p256_p _ p256 (by meets) (by meets) ⟨(p256_p : ℤ) - 10, ⟨p256_p⟩⟩ ⟨9, ⟨p256_p⟩⟩ (by meets)
  (by meets) (okGet (Weierstrass.SSWU.new p256 ⟨(p256_p : ℤ) - 10, ⟨p256_p⟩⟩) (by decide +kernel)) (okGet_eq _ _)

example := @C41_normalised p256_p _ p256 (by meets) (by meets) ⟨(p256_p : ℤ) - 10, ⟨p256_p⟩⟩ ⟨9, ⟨p256_p⟩⟩ (by meets)
  (by meets) (okGet (Weierstrass.SSWU.new p256 ⟨(p256_p : ℤ) - 10, ⟨p256_p⟩⟩) (by decide +kernel)) (okGet_eq _ _)

example := @C41_odd p256_p _ p256 (by meets) (by meets) ⟨(p256_p : ℤ) - 10, ⟨p256_p⟩⟩ ⟨9, ⟨p256_p⟩⟩
  ⟨(p256_p : ℤ) - 9, ⟨p256_p⟩⟩ (by meets) (by meets) (by meets) (by meets) (by meets)
  (okGet (Weierstrass.SSWU.new p256 ⟨(p256_p : ℤ) - 10, ⟨p256_p⟩⟩) (by decide +kernel)) (okGet_eq _ _)

example := @C42_new p256_p _ p256 (by meets) (by meets) ⟨(p256_p : ℤ) - 3, ⟨p256_p⟩⟩ (by meets)

example := @C42_map p256_p _ p256 (by meets) (by meets) ⟨(p256_p : ℤ) - 3, ⟨p256_p⟩⟩ (by meets)
  (okGet (Weierstrass.SVDW.new p256 ⟨(p256_p : ℤ) - 3, ⟨p256_p⟩⟩) (by decide +kernel)) (okGet_eq _ _)

example := @C51_weierstrass p256_p _ p256 (by meets) .debug 5 (-8) (by meets)

example := @C52_weierstrass p256_p _ p256 (by meets) .debug wG wg (by meets) (by meets)
  (.sub (.mul 5 .generator) (.add .generator .identity))
  (Or.inl ⟨⟨not_dvd_of (by decide +kernel), trivial⟩, trivial, trivial⟩)

example := @C71_sswu p256_p _ p256 (by meets) (by meets) ⟨(p256_p : ℤ) - 10, ⟨p256_p⟩⟩ (by meets)
  (okGet (Weierstrass.SSWU.new p256 ⟨(p256_p : ℤ) - 10, ⟨p256_p⟩⟩) (by decide +kernel)) (okGet_eq _ _)

example := @C71_sswu_order_two 7 _ Map.toyRoot toyRoot_curve (by meets) ⟨3, ⟨7⟩⟩ (by meets)
  (okGet (Weierstrass.SSWU.new Map.toyRoot ⟨3, ⟨7⟩⟩) (by decide +kernel)) (okGet_eq _ _) 4 toyRoot_two

example := @C71_svdw p256_p _ p256 (by meets) (by meets) ⟨(p256_p : ℤ) - 3, ⟨p256_p⟩⟩ (by meets)
  (okGet (Weierstrass.SVDW.new p256 ⟨(p256_p : ℤ) - 3, ⟨p256_p⟩⟩) (by decide +kernel)) (okGet_eq _ _)

example := @C71_svdw_order_two 7 _ Map.toyRoot toyRoot_curve (by meets) ⟨2, ⟨7⟩⟩ (by meets)
  (okGet (Weierstrass.SVDW.new Map.toyRoot ⟨2, ⟨7⟩⟩) (by decide +kernel)) (okGet_eq _ _) 4 toyRoot_two

example := @C72_weierstrass_partial p256_p p256_p _ _ p256 p256 wG wH wg (wg + wg) (by meets) (by meets)

example := @C72_weierstrass_equiv p256_p _ p256 wG wH wG (by meets) (by meets) (by meets)

example := @C72_weierstrass_congr p256_p _ p256 (by meets) (by meets) (by meets) wG wG wH wK (by meets) (by meets)
  (by meets) (by meets) (by meets) (by meets)

example := @C75_generator_weierstrass
  ⟨[], ascii! "+1_3", ascii! "-3", ascii! "0xB", ascii! "7", ascii! "1", ascii! "0b10", ascii! "0"⟩
  ⟨⟨13⟩, ⟨10, ⟨13⟩⟩, ⟨11, ⟨13⟩⟩, 7, ⟨2, ⟨13⟩⟩, ⟨0, ⟨13⟩⟩, 1⟩ (by meets)

example := @C77_weierstrass p256_p _ p256 (by meets) (by meets) .debug (-4) 9 (by meets) (by meets) true false

example := @C78_weierstrass_partial p256_p _ p256 (by meets) .debug 3 5 7 11 (by meets)

example := @C79_weierstrass_partial p256_p _ p256 (by meets) (by meets) .debug 3 5 19 23 (by meets) (by meets) (by meets)

example := @C79_weierstrass_accepts_partial p256_p _ p256 (by meets) (by meets) .debug 3 5 19 23 11 (by meets) (by meets)

example := @C82_sswuab0 secp256k1_p secp256k1_p _ _ isoSecp256k1.toIsogeny isoSecp256k1.e1 isoSecp256k1.e0
  isoSecp256k1.e1 secp256k1_valid.curve (by meets) secp256k1_3iso_valid.curve (by meets) Isog.secpZ (by meets)

example := @C83_weierstrass_exact p256_p _ p256 (by meets) .debug wG wg (by meets) 5 13

example := @C83_weierstrass_laws p256_p _ p256 (by meets) (by meets) .debug wG wg (by meets)

example := @C86_weierstrass p256_p _ p256 (by meets) (by meets) (by meets) .debug wG wg (by meets) (by meets) (by meets)
  5 11 (by meets) (by meets) true false

example := @C86_weierstrass_hiding p256_p _ p256 (by meets) .debug 6 10 5 (by meets) (by meets) (by meets)

example := @C87_weierstrass p256_p _ p256 (by meets) .debug wG wg (by meets) (by meets) (by meets) 3 17 5 13 7 11 (by meets)

example := @C87_weierstrass_sound p256_p _ p256 (by meets) .debug wG wg (by meets) (by meets) (by meets) 3 3 5 5 7 26 8
  29 (by meets) (by meets) (by meets)

example := @C87_weierstrass_complete p256_p _ p256 (by meets) .debug wG wg (by meets) (by meets) (by meets) 3 5 7 (by meets)

example := @C89_weierstrass_reveals .debug wG wH ⟨5, p256.r⟩ ⟨6, p256.r⟩ (by meets) (by meets) (by meets) (by meets)
  (okGet (Weierstrass.Point.mulT .debug wG ⟨5, p256.r⟩) (by decide +kernel)).1
  (okGet (Weierstrass.Point.mulT .debug wH ⟨6, p256.r⟩) (by decide +kernel)).1
  (okGet (Weierstrass.Point.mulT .debug wG ⟨5, p256.r⟩) (by decide +kernel)).2
  (okGet (Weierstrass.Point.mulT .debug wH ⟨6, p256.r⟩) (by decide +kernel)).2
  (okGet_eq (Weierstrass.Point.mulT .debug wG ⟨5, p256.r⟩) (by decide +kernel))
  (okGet_eq (Weierstrass.Point.mulT .debug wH ⟨6, p256.r⟩) (by decide +kernel))

example := @C90_weierstrass p256_p _ p256 (by meets) wG (val p256_p p256.gx) (val p256_p p256.gy) wg_some.choose
  (wg_some.choose_spec ▸ wG_den)

example := @C90_weierstrass_eq p256_p _ p256 (by meets) wG wH wg (wg + wg) (by meets) (by meets) (by meets) (by meets)

example := @C94_check_weierstrass p256_p _ p256 wG (by meets) (by meets) (by meets) (by meets) (by meets)

example := @C95_weierstrass p256 (by meets)

example := @C96_weierstrass p256_p _ p256 (by meets) (by meets) .debug wG wg (by meets) (by meets) [7, 11] [2, 3, 5]
  (by meets) (by meets) (by meets)

example := @C97_weierstrass p256_p _ p256 (by meets) .debug [(5, wG, wg), (9, wH, wg + wg)]
  (by simp [wG_den, wH_den, wg_kill, wh_kill])
  (Or.inl (by simp only [List.forall_mem_cons]; exact ⟨not_dvd_of (by decide +kernel), not_dvd_of (by decide +kernel), by simp⟩))

example := @C98_weierstrass_encode p256_p _ p256 (by meets) wG (by meets) (by meets) (by meets) (by meets)
  (val p256_p p256.gx) (val p256_p p256.gy) wG_z wG_x wG_y true

example := @C98_weierstrass_decode p256_p _ p256 (by meets) (by meets) (val p256_p p256.gx) (val p256_p p256.gy) wg_on
  true genBytes wg_sec1

example := @C99_weierstrass_order p256_p _ p256 (by meets) wG wg (by meets)

example := @C99_weierstrass p256_p _ p256 (by meets) .debug wG wg (by meets)

example := @C100_weierstrass_exact_partial p256_p _ p256 (by meets) .debug wG wg (by meets) 5 (by meets)

example := @C101_weierstrass p256_p _ p256 (by meets) (by meets) .debug wG wg (by meets) 5 (by meets) (by meets)

example := @C101_weierstrass_order p256_p _ p256 (by meets) (by meets) .debug wG wg (by meets)

example := @C103_weierstrass p256_p _ p256 (by meets) (by meets) (by meets)

end Redox.Witness
