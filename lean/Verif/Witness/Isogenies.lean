import Verif.Witness.Base
import Verif.Props.Foreign
import Verif.Props.IsoHomProps
import Verif.Props.IsogenyProps
import Verif.Props.MapFibres

/-! # Every property theorem with hypotheses, applied to concrete values: isogenies -/

set_option maxRecDepth 100000

namespace Redox.Witness

open Redox Redox.Spec Redox.Props Redox.Inst Redox.Props.Inst

/-! ## Values used below -/

/-- The generator of secp256k1_3iso, as the code represents it. -/
def sG : Weierstrass.Point := okOr wG secp256k1_3iso.getGenerator

theorem sG_eq : secp256k1_3iso.getGenerator = R.ok sG := by decide +kernel

theorem sG_spec : ∃ A : (wGroup secp256k1_p secp256k1_3iso).Point, WDenotes secp256k1_p secp256k1_3iso sG A ∧ addOrderOf A = secp256k1_3iso.getOrder := by
  obtain ⟨G, A, hG, hA, ho⟩ := secp256k1_3iso_valid.generator
  rw [sG_eq] at hG
  cases hG
  exact ⟨A, hA, ho⟩

/-- The point of the curve that `sG` stands for. -/
noncomputable def sg : (wGroup secp256k1_p secp256k1_3iso).Point := sG_spec.choose

theorem sG_den : WDenotes secp256k1_p secp256k1_3iso sG sg := sG_spec.choose_spec.1

theorem sg_order : addOrderOf sg = secp256k1_3iso.r := sG_spec.choose_spec.2

theorem sH_ret : ∃ S, sG.add sG = R.ok S ∧ WDenotes secp256k1_p secp256k1_3iso S (sg + sg) :=
  (C23_group_law secp256k1_p secp256k1_3iso secp256k1_3iso_valid.curve secp256k1_3iso_valid.complete
    sG sG sg sg sG_den sG_den).1

/-- Twice the generator, as the code computes it. -/
def sH : Weierstrass.Point := okOr sG (sG.add sG)

theorem sH_den : WDenotes secp256k1_p secp256k1_3iso sH (sg + sg) := by
  obtain ⟨S, hS, hd⟩ := sH_ret
  rwa [sH, hS]

theorem s_ne (n : ℕ) (h : ¬ secp256k1_3iso.r ∣ n) : n • sg ≠ 0 := by
  rwa [Ne, ← addOrderOf_dvd_iff_nsmul_eq_zero, sg_order]

theorem sg_ne : sg ≠ 0 := by simpa using s_ne 1 (by decide +kernel)

theorem sh_ne : sg + sg ≠ 0 := by simpa [two_nsmul] using s_ne 2 (by decide +kernel)

theorem sl_ne : sg + (sg + sg) ≠ 0 := by
  have h := s_ne (1 + 2) (by decide +kernel)
  rwa [add_nsmul, one_nsmul, two_nsmul] at h

/-- The generator of secp256k1. -/
noncomputable def sB : (wGroup secp256k1_p isoSecp256k1.e1).Point := secp256k1_valid.generator.choose_spec.choose

/-- The generator of bls12381g1_11iso, as the code represents it. -/
def bG : Weierstrass.Point := okOr wG bls12381g1_11iso.getGenerator

theorem bG_eq : bls12381g1_11iso.getGenerator = R.ok bG := by decide +kernel

theorem bG_spec : ∃ A : (wGroup bls12381g1_p bls12381g1_11iso).Point, WDenotes bls12381g1_p bls12381g1_11iso bG A ∧ addOrderOf A = bls12381g1_11iso.getOrder := by
  obtain ⟨G, A, hG, hA, ho⟩ := bls12381g1_11iso_valid.generator
  rw [bG_eq] at hG
  cases hG
  exact ⟨A, hA, ho⟩

/-- The point of the curve that `bG` stands for. -/
noncomputable def bg : (wGroup bls12381g1_p bls12381g1_11iso).Point := bG_spec.choose

theorem bG_den : WDenotes bls12381g1_p bls12381g1_11iso bG bg := bG_spec.choose_spec.1

theorem bg_order : addOrderOf bg = bls12381g1_11iso.r := bG_spec.choose_spec.2

theorem bH_ret : ∃ S, bG.add bG = R.ok S ∧ WDenotes bls12381g1_p bls12381g1_11iso S (bg + bg) :=
  (C23_group_law bls12381g1_p bls12381g1_11iso bls12381g1_11iso_valid.curve bls12381g1_11iso_valid.complete
    bG bG bg bg bG_den bG_den).1

/-- Twice the generator, as the code computes it. -/
def bH : Weierstrass.Point := okOr bG (bG.add bG)

theorem bH_den : WDenotes bls12381g1_p bls12381g1_11iso bH (bg + bg) := by
  obtain ⟨S, hS, hd⟩ := bH_ret
  rwa [bH, hS]

theorem b_im (n : ℕ) (hn : ¬ bls12381g1_11iso.r ∣ 11 * n) : ¬ IsoImage isoBls12381g1 (n • bg) 0 := by
  obtain ⟨φ, hφ⟩ := isoBls12381g1_hom
  intro h
  have h0 : φ (n • bg) = 0 := Isog.image_unique (hφ _) h
  have h3 := addOrderOf_dvd_natCard (⟨_, h0⟩ : φ.ker)
  rw [Isog.bls_ker φ hφ, addOrderOf_dvd_iff_nsmul_eq_zero] at h3
  have h4 : 11 • n • bg = 0 := congrArg Subtype.val h3
  rw [← mul_smul, ← addOrderOf_dvd_iff_nsmul_eq_zero, bg_order] at h4
  exact hn h4

theorem bg_im : ¬ IsoImage isoBls12381g1 bg 0 := by simpa using b_im 1 (by decide +kernel)

theorem bh_im : ¬ IsoImage isoBls12381g1 (bg + bg) 0 := by simpa [two_nsmul] using b_im 2 (by decide +kernel)

theorem bl_im : ¬ IsoImage isoBls12381g1 (bg + (bg + bg)) 0 := by
  have h := b_im (1 + 2) (by decide +kernel)
  rwa [add_nsmul, one_nsmul, two_nsmul] at h

theorem bk_im : ¬ IsoImage isoBls12381g1 ((3 : ℤ) • bg) 0 := by exact_mod_cast b_im 3 (by decide +kernel)

/-- The generator of BLS12-381 G1. -/
noncomputable def bB : (wGroup bls12381g1_p isoBls12381g1.e1).Point := bls12381g1_valid.generator.choose_spec.choose

/-! ## Applications -/

example := @C45_push_partial isoSecp256k1 isoSecp256k1_eq sG sg sG_den (by meets)

example := @C45_push_normalized isoSecp256k1 isoSecp256k1_eq sG sg sG_den sg_ne

example := @C45_map isoSecp256k1 isoSecp256k1_eq Isog.secpZ ⟨9, ⟨secp256k1_p⟩⟩ (by meets) (by meets)
  (okGet (Weierstrass.SSWUAB0.new isoSecp256k1.e1 Isog.secpZ isoSecp256k1.toIsogeny) (by decide +kernel)) (okGet_eq _ _)

example := @C46_push_partial isoBls12381g1 isoBls12381g1_eq bG bg bG_den (by meets) bg_im

example := @C46_refuted_push isoBls12381g1 isoBls12381g1_eq

example := @C46_push_normalized_partial isoBls12381g1 isoBls12381g1_eq bG bg bG_den bg_im

example := @C46_map_partial isoBls12381g1 isoBls12381g1_eq Isog.blsZ (by meets) ⟨9, ⟨bls12381g1_p⟩⟩ (by meets)
  (okGet (Weierstrass.SSWUAB0.new isoBls12381g1.e1 Isog.blsZ isoBls12381g1.toIsogeny) (by decide +kernel))
  (okGet_eq _ _) (by meets)

example := @C46_refuted_map isoBls12381g1 isoBls12381g1_eq Isog.blsZ (by meets)
  (okGet (Weierstrass.SSWUAB0.new isoBls12381g1.e1 Isog.blsZ isoBls12381g1.toIsogeny) (by decide +kernel))
  (okGet_eq _ _)

example := @C67_secp256k1 isoSecp256k1 isoSecp256k1_eq

example := @C67_secp256k1_add_partial isoSecp256k1 isoSecp256k1_eq sG sH sg (sg + sg) sG_den sH_den sg_ne sh_ne sl_ne

example := @C67_secp256k1_mul_partial isoSecp256k1 isoSecp256k1_eq .debug sG sg sG_den sg_ne ⟨5, secp256k1_3iso.r⟩
  (by meets) (by meets)

example := @C67_bls12381g1 isoBls12381g1 isoBls12381g1_eq

example := @C67_bls12381g1_add_partial isoBls12381g1 isoBls12381g1_eq bG bH bg (bg + bg) bG_den bH_den bg_im bh_im bl_im

example := @C67_bls12381g1_mul_partial isoBls12381g1 isoBls12381g1_eq .debug bG bg bG_den ⟨3, bls12381g1_11iso.r⟩
  (by meets) (by meets) bg_im bk_im

example := @C71_secp256k1 isoSecp256k1 isoSecp256k1_eq Isog.secpZ (by meets)
  (okGet (Weierstrass.SSWUAB0.new isoSecp256k1.e1 Isog.secpZ isoSecp256k1.toIsogeny) (by decide +kernel)) (okGet_eq _ _)
  sB

example := @C71_bls12381g1 isoBls12381g1 isoBls12381g1_eq Isog.blsZ (by meets)
  (okGet (Weierstrass.SSWUAB0.new isoBls12381g1.e1 Isog.blsZ isoBls12381g1.toIsogeny) (by decide +kernel))
  (okGet_eq _ _) bB

example := @C95_weierstrass_maps secp256k1 (by meets) ⟨2, ⟨secp256k1_p⟩⟩ ⟨9, ⟨secp256k1_p⟩⟩ isoSecp256k1 (by meets)
  (by meets)

end Redox.Witness
