import Verif.Witness.Base
import Verif.Props.EdwMapProps
import Verif.Props.Foreign
import Verif.Props.Iso448Hom
import Verif.Props.Iso448Props

/-! # Every property theorem with hypotheses, applied to concrete values: edwards448 -/

set_option maxRecDepth 100000

namespace Redox.Witness

open Redox Redox.Spec Redox.Props Redox.Inst Redox.Props.Inst

/-! ## Values used below -/

instance : ECurve curve448_p edwards448 := edwards448_valid.curve

instance : ECurve curve448_p Iso4.map448.e0 := edwards448_valid.curve

/-- The generator of edwards448, as the code represents it. -/
def fG : Edwards.Point := okOr eG edwards448.getGenerator

theorem fG_eq : edwards448.getGenerator = R.ok fG := by decide +kernel

theorem fG_spec : ∃ A : eGroup curve448_p edwards448, EDenotes curve448_p edwards448 fG A ∧ addOrderOf A = edwards448.getOrder := by
  obtain ⟨G, A, hG, hA, ho⟩ := edwards448_valid.generator
  rw [fG_eq] at hG
  cases hG
  exact ⟨A, hA, ho⟩

/-- The point of the curve that `fG` stands for. -/
noncomputable def fg : eGroup curve448_p edwards448 := fG_spec.choose

theorem fG_den : EDenotes curve448_p edwards448 fG fg := fG_spec.choose_spec.1

theorem fg_order : addOrderOf fg = edwards448.r := fG_spec.choose_spec.2

theorem fH_ret : ∃ S, fG.add fG = R.ok S ∧ EDenotes curve448_p edwards448 S (fg + fg) :=
  (C36_group_law curve448_p edwards448
    fG fG fg fg fG_den fG_den).1

/-- Twice the generator, as the code computes it. -/
def fH : Edwards.Point := okOr fG (fG.add fG)

theorem fH_den : EDenotes curve448_p edwards448 fH (fg + fg) := by
  obtain ⟨S, hS, hd⟩ := fH_ret
  rwa [fH, hS]

theorem fg_y : fg.y ≠ 0 := by
  intro h
  have h1 := fG_den.2.2.2.2.2.2.2.1
  rw [h, zero_mul] at h1
  revert h1
  decide +kernel

/-- The generator of curve448, as the code represents it. -/
def nG : Montgomery.Point := okOr mG curve448.getGenerator

theorem nG_eq : curve448.getGenerator = R.ok nG := by decide +kernel

theorem nG_spec : ∃ A : (mGroup curve448_p curve448).Point, MDenotes curve448_p curve448 nG A ∧ addOrderOf A = curve448.getOrder := by
  obtain ⟨G, A, hG, hA, ho⟩ := curve448_valid.generator
  rw [nG_eq] at hG
  cases hG
  exact ⟨A, hA, ho⟩

/-- The point of the curve that `nG` stands for. -/
noncomputable def ng : (mGroup curve448_p curve448).Point := nG_spec.choose

theorem nG_den : MDenotes curve448_p curve448 nG ng := nG_spec.choose_spec.1

theorem ng_order : addOrderOf ng = curve448.r := nG_spec.choose_spec.2

theorem nH_ret : ∃ S, nG.add nG = R.ok S ∧ MDenotes curve448_p curve448 S (ng + ng) :=
  (C32_group_law_partial curve448_p curve448 curve448_valid.curve curve448_valid.b_one curve448_valid.complete
    nG nG ng ng nG_den nG_den).1

/-- Twice the generator, as the code computes it. -/
def nH : Montgomery.Point := okOr nG (nG.add nG)

theorem nH_den : MDenotes curve448_p curve448 nH (ng + ng) := by
  obtain ⟨S, hS, hd⟩ := nH_ret
  rwa [nH, hS]

theorem n_ne_two (n : ℕ) (n0 : 0 < n) (n4 : n < 4) (hn) : n • ng ≠ .some 0 0 hn := by
  intro e
  have two : 2 • (.some 0 0 hn : (mGroup curve448_p curve448).Point) = 0 := by
    rw [two_nsmul]
    exact WeierstrassCurve.Affine.Point.add_self_of_Y_eq (by simp [WeierstrassCurve.Affine.negY])
  have h2 : (2 * n) • ng = 0 := by rw [mul_smul, e]; exact two
  have := Nat.le_of_dvd (by omega) (addOrderOf_dvd_iff_nsmul_eq_zero.2 h2)
  rw [ng_order] at this
  have hr : 8 < curve448.r := by decide +kernel
  omega

theorem ng_ne_two (hn) : ng ≠ .some 0 0 hn := by simpa using n_ne_two 1 (by norm_num) (by norm_num) hn

theorem nh_ne_two (hn) : ng + ng ≠ .some 0 0 hn := by
  rw [← two_nsmul]
  exact n_ne_two 2 (by norm_num) (by norm_num) hn

theorem nl_ne_two (hn) : ng + (ng + ng) ≠ .some 0 0 hn := by
  have h := n_ne_two 3 (by norm_num) (by norm_num) hn
  rwa [show (3 : ℕ) = 1 + 2 from rfl, add_nsmul, one_nsmul, two_nsmul] at h

theorem nk_ne_two (hn) : (3 : ℤ) • ng ≠ .some 0 0 hn := by exact_mod_cast n_ne_two 3 (by norm_num) (by norm_num) hn

/-- The point `(0, 0)` of curve448. -/
def nT : Montgomery.Point := ⟨curve448, ⟨⟨0, ⟨curve448_p⟩⟩, ⟨0, ⟨curve448_p⟩⟩, ⟨1, ⟨curve448_p⟩⟩⟩⟩

theorem nT_ns : (mGroup curve448_p curve448).Nonsingular 0 0 := (Mont.nonsingular_iff _ _ _).2 (by simp)

theorem nT_den : MDenotes curve448_p curve448 nT (.some 0 0 nT_ns) :=
  ⟨rfl, ⟨rfl, by decide +kernel, by decide +kernel⟩, ⟨rfl, by decide +kernel, by decide +kernel⟩,
    ⟨rfl, by decide +kernel, by decide +kernel⟩, by decide +kernel, by simp [nT, Spec.val], by simp [nT, Spec.val]⟩

theorem minus_one : val curve448_p ⟨(curve448_p : ℤ) - 1, ⟨curve448_p⟩⟩ = -1 := by simp [Spec.val]

theorem minus_one_nonsquare : ¬ IsSquare (val curve448_p ⟨(curve448_p : ℤ) - 1, ⟨curve448_p⟩⟩) := by
  have := NoRoot.not_isSquare_of_pow (p := curve448_p) (curve448_p - 1) (by decide +kernel) (by decide +kernel)
  have e : ((curve448_p - 1 : ℕ) : ZMod curve448_p) = -1 := by
    rw [Nat.cast_sub (by decide +kernel)]; simp
  rw [minus_one, ← e]; exact this

theorem nine_ok : val curve448_p ⟨(curve448_p : ℤ) - 1, ⟨curve448_p⟩⟩ * val curve448_p ⟨9, ⟨curve448_p⟩⟩ ^ 2 ≠ -1 := by
  have h : val curve448_p ⟨9, ⟨curve448_p⟩⟩ ^ 2 = ((81 : ℕ) : ZMod curve448_p) := by simp [Spec.val]; norm_num
  have h1 : (1 : ZMod curve448_p) = ((1 : ℕ) : ZMod curve448_p) := by simp
  rw [minus_one, h, neg_one_mul, Ne, neg_inj, h1, ZMod.natCast_eq_natCast_iff']
  decide +kernel

theorem ell2_448 : Edwards.Ell2.new Iso4.map448.e0 ⟨(curve448_p : ℤ) - 1, ⟨curve448_p⟩⟩ (some Iso4.map448.toRationalMap) =
    R.ok ⟨Iso4.map448.toRationalMap, ⟨curve448, ⟨(curve448_p : ℤ) - 1, ⟨curve448_p⟩⟩, ⟨156326, ⟨curve448_p⟩⟩, ⟨1, ⟨curve448_p⟩⟩⟩⟩ := by
  have h1 : Montgomery.Ell2.new curve448 ⟨(curve448_p : ℤ) - 1, ⟨curve448_p⟩⟩ =
    R.ok ⟨curve448, ⟨(curve448_p : ℤ) - 1, ⟨curve448_p⟩⟩, ⟨156326, ⟨curve448_p⟩⟩, ⟨1, ⟨curve448_p⟩⟩⟩ := by decide +kernel
  simp [Edwards.Ell2.new, Ed4isoMt448.toRationalMap, Iso4.map448, h1]

/-! ## Applications -/

example := @C44_isogeny_partial curve448_p _ Iso4.map448 _ Iso4.map448_ok (by meets)
  ⟨(curve448_p : ℤ) - 1, ⟨curve448_p⟩⟩ ⟨9, ⟨curve448_p⟩⟩ (by meets) minus_one_nonsquare (by meets) (by meets) nine_ok
  (Edwards.Ell2.mk Iso4.map448.toRationalMap ⟨curve448, ⟨(curve448_p : ℤ) - 1, ⟨curve448_p⟩⟩, ⟨156326, ⟨curve448_p⟩⟩, ⟨1, ⟨curve448_p⟩⟩⟩)
  ell2_448

example := @C48_push curve448_p _ Iso4.map448 _ Iso4.map448_ok fG fg fG_den

example := @C48_pull_partial curve448_p _ Iso4.map448 _ Iso4.map448_ok nG ng nG_den ng_ne_two

example := @C48_no_panic curve448_p _ Iso4.map448 _ Iso4.map448_ok

example := @C48_four_partial curve448_p _ Iso4.map448 _ Iso4.map448_ok fG fg fG_den fg_y

example := @C48_four_api curve448_p _ Iso4.map448 _ Iso4.map448_ok fG fg fG_den

example := @C48_refuted_pull curve448_p _ Iso4.map448 _ Iso4.map448_ok nT nT_ns nT_den

example := @C69_isogeny Iso4.map448 Iso4.map448_eq _

example := @C69_push_add Iso4.map448 Iso4.map448_eq _ fG fH fg (fg + fg) fG_den fH_den

example := @C69_push_mul_partial Iso4.map448 Iso4.map448_eq _ .debug fG fg fG_den ⟨5, edwards448.r⟩ (by meets) (by meets)

example := @C69_pull_add_partial Iso4.map448 Iso4.map448_eq _ nG nH ng (ng + ng) nG_den nH_den ng_ne_two nh_ne_two nl_ne_two

example := @C69_pull_mul_partial Iso4.map448 Iso4.map448_eq _ .debug nG ng nG_den ⟨3, curve448.r⟩ (by meets) (by meets)
  ng_ne_two nk_ne_two

example := @C69_push_pull_partial Iso4.map448 Iso4.map448_eq _ nG ng nG_den ng_ne_two

example := @C95_montgomery_maps curve448 ⟨2, ⟨curve448_p⟩⟩ ⟨9, ⟨curve448_p⟩⟩ Bir.map25519 Iso4.map448 fG (by meets)

example := @C95_edwards_maps edwards448 ⟨2, ⟨curve448_p⟩⟩ ⟨9, ⟨curve448_p⟩⟩ Bir.map25519 Iso4.map448 nG (by meets)
  (by meets) (by meets)

end Redox.Witness
