import Verif.Witness.Base
import Verif.Props.Programs

/-! Cases that meet the hypotheses of C121. -/

set_option maxRecDepth 100000

namespace Redox.Witness

open Redox Redox.Spec Redox.Props Redox.Inst Redox.Props.Inst

/-- `(A + generator) * (1 / (s + 1)) - identity * (s * s) - (-A)`. -/
def sampleProgram : GExpr :=
  .sub (.sub (.mul (.add (.var 0) .generator) (.inv (.add (.var 0) (.const 1)))) (.mul .identity (.mul (.var 0) (.var 0)))) (.neg (.var 0))

/-- `generator * (s - s)`. -/
def zeroProgram : GExpr := .mul .generator (.sub (.var 0) (.var 0))

theorem sample_form : sampleProgram.Scalars fun k => k.NoPow ∧ k.NoSq := by
  simp [sampleProgram, GExpr.Scalars, AExpr.NoPow, AExpr.NoSq]

theorem zero_form : zeroProgram.Scalars fun k => k.NoPow ∧ k.NoSq := by
  simp [zeroProgram, GExpr.Scalars, AExpr.NoPow, AExpr.NoSq]

theorem cast_ne (r n : ℕ) (h0 : 0 < n) (h : n < r) : ((n : ℕ) : ZMod r) ≠ 0 := by
  rw [Ne, ZMod.natCast_eq_zero_iff]
  exact fun hd => absurd (Nat.le_of_dvd h0 hd) (by omega)

theorem sample_nonzero (r : ℕ) (hp : r.Prime) (h : 9 < r) : sampleProgram.Scalars fun k => residue r (fun _ => ⟨3, r⟩) k ≠ 0 := by
  have := Fact.mk hp
  have h4 := cast_ne r 4 (by omega) (by omega)
  have h9 := cast_ne r 9 (by omega) h
  have e4 : ((4 : ℕ) : ZMod r) = 3 + 1 := by norm_num
  have e9 : ((9 : ℕ) : ZMod r) = 3 * 3 := by norm_num
  rw [e4] at h4
  rw [e9] at h9
  simp only [sampleProgram, GExpr.Scalars, residue, AExpr.value, true_and, and_true]
  push_cast
  exact ⟨inv_ne_zero h4, h9⟩

theorem zero_zero (r : ℕ) : ¬ zeroProgram.Scalars fun k => residue r (fun _ => ⟨3, r⟩) k ≠ 0 := by
  simp [zeroProgram, GExpr.Scalars, residue, AExpr.value]

example := C121_weierstrass p256_p p256 p256_valid (by decide +kernel) .debug wG wg wG_eq wG_den (fun _ => wH) (fun _ => wg + wg) (fun _ => wH_den)
  (fun _ => ⟨3, p256.getOrder⟩) (fun _ => ⟨rfl, by decide, by decide +kernel⟩) sampleProgram sample_form (.inl (sample_nonzero _ p256_valid.order_prime (by decide +kernel)))

example := C121_weierstrass p256_p p256 p256_valid (by decide +kernel) .release wG wg wG_eq wG_den (fun _ => wH) (fun _ => wg + wg) (fun _ => wH_den)
  (fun _ => ⟨3, p256.getOrder⟩) (fun _ => ⟨rfl, by decide, by decide +kernel⟩) zeroProgram zero_form (.inr rfl)

example := C121_weierstrass_zero p256_p p256 p256_valid (by decide +kernel) wG wg wG_eq wG_den (fun _ => wH) (fun _ => wg + wg) (fun _ => wH_den)
  (fun _ => ⟨3, p256.getOrder⟩) (fun _ => ⟨rfl, by decide, by decide +kernel⟩) zeroProgram zero_form (zero_zero _)

example := C121_weierstrass_eq p256_p p256 p256_valid (by decide +kernel) .debug wG wg wG_eq wG_den (fun _ => wH) (fun _ => wg + wg) (fun _ => wH_den)
  (fun _ => ⟨3, p256.getOrder⟩) (fun _ => ⟨rfl, by decide, by decide +kernel⟩) sampleProgram sampleProgram sample_form sample_form
  (.inl ⟨(sample_nonzero _ p256_valid.order_prime (by decide +kernel)), (sample_nonzero _ p256_valid.order_prime (by decide +kernel))⟩)

example := C121_montgomery curve25519_p curve25519 curve25519_valid (by decide +kernel) .debug mG mg mG_eq mG_den (fun _ => mH) (fun _ => mg + mg) (fun _ => mH_den)
  (fun _ => ⟨3, curve25519.getOrder⟩) (fun _ => ⟨rfl, by decide, by decide +kernel⟩) sampleProgram sample_form (.inl (sample_nonzero _ curve25519_valid.order_prime (by decide +kernel)))

example := C121_montgomery curve25519_p curve25519 curve25519_valid (by decide +kernel) .release mG mg mG_eq mG_den (fun _ => mH) (fun _ => mg + mg) (fun _ => mH_den)
  (fun _ => ⟨3, curve25519.getOrder⟩) (fun _ => ⟨rfl, by decide, by decide +kernel⟩) zeroProgram zero_form (.inr rfl)

example := C121_montgomery_zero curve25519_p curve25519 curve25519_valid (by decide +kernel) mG mg mG_eq mG_den (fun _ => mH) (fun _ => mg + mg) (fun _ => mH_den)
  (fun _ => ⟨3, curve25519.getOrder⟩) (fun _ => ⟨rfl, by decide, by decide +kernel⟩) zeroProgram zero_form (zero_zero _)

example := C121_montgomery_eq curve25519_p curve25519 curve25519_valid (by decide +kernel) .debug mG mg mG_eq mG_den (fun _ => mH) (fun _ => mg + mg) (fun _ => mH_den)
  (fun _ => ⟨3, curve25519.getOrder⟩) (fun _ => ⟨rfl, by decide, by decide +kernel⟩) sampleProgram sampleProgram sample_form sample_form
  (.inl ⟨(sample_nonzero _ curve25519_valid.order_prime (by decide +kernel)), (sample_nonzero _ curve25519_valid.order_prime (by decide +kernel))⟩)

example := C121_edwards curve25519_p edwards25519 edwards25519_valid (by decide +kernel) .debug eG eg eG_eq eG_den (fun _ => eH) (fun _ => eg + eg) (fun _ => eH_den)
  (fun _ => ⟨3, edwards25519.getOrder⟩) (fun _ => ⟨rfl, by decide, by decide +kernel⟩) sampleProgram sample_form (.inl (sample_nonzero _ edwards25519_valid.order_prime (by decide +kernel)))

example := C121_edwards curve25519_p edwards25519 edwards25519_valid (by decide +kernel) .release eG eg eG_eq eG_den (fun _ => eH) (fun _ => eg + eg) (fun _ => eH_den)
  (fun _ => ⟨3, edwards25519.getOrder⟩) (fun _ => ⟨rfl, by decide, by decide +kernel⟩) zeroProgram zero_form (.inr rfl)

example := C121_edwards_zero curve25519_p edwards25519 edwards25519_valid (by decide +kernel) eG eg eG_eq eG_den (fun _ => eH) (fun _ => eg + eg) (fun _ => eH_den)
  (fun _ => ⟨3, edwards25519.getOrder⟩) (fun _ => ⟨rfl, by decide, by decide +kernel⟩) zeroProgram zero_form (zero_zero _)

example := C121_edwards_eq curve25519_p edwards25519 edwards25519_valid (by decide +kernel) .debug eG eg eG_eq eG_den (fun _ => eH) (fun _ => eg + eg) (fun _ => eH_den)
  (fun _ => ⟨3, edwards25519.getOrder⟩) (fun _ => ⟨rfl, by decide, by decide +kernel⟩) sampleProgram sampleProgram sample_form sample_form
  (.inl ⟨(sample_nonzero _ edwards25519_valid.order_prime (by decide +kernel)), (sample_nonzero _ edwards25519_valid.order_prime (by decide +kernel))⟩)

/-- `generator * s` and `A + generator * 1`: the multiples `s` and `l + 1` of the generator. -/
def leftProgram : GExpr := .mul .generator (.var 0)

def rightProgram : GExpr := .add (.var 0) (.mul .generator (.const 1))

theorem left_form : leftProgram.Scalars fun k => k.NoPow ∧ k.NoSq := by simp [leftProgram, GExpr.Scalars, AExpr.NoPow, AExpr.NoSq]

theorem right_form : rightProgram.Scalars fun k => k.NoPow ∧ k.NoSq := by simp [rightProgram, GExpr.Scalars, AExpr.NoPow, AExpr.NoSq]

theorem left_nonzero (r : ℕ) (h : 9 < r) : leftProgram.Scalars fun k => residue r (fun _ => ⟨3, r⟩) k ≠ 0 := by
  have := cast_ne r 3 (by omega) (by omega)
  simpa [leftProgram, GExpr.Scalars, residue, AExpr.value] using this

theorem right_nonzero (r : ℕ) (h : 9 < r) : rightProgram.Scalars fun k => residue r (fun _ => ⟨3, r⟩) k ≠ 0 := by
  have := cast_ne r 1 (by omega) (by omega)
  simpa [rightProgram, GExpr.Scalars, residue, AExpr.value] using this

theorem two_val (r : ℕ) (h : 9 < r) {G : Type*} [AddCommGroup G] (g : G) : (2 : ZMod r).val • g = g + g := by
  have : (2 : ZMod r).val = 2 := by
    have := ZMod.val_natCast_of_lt (n := r) (a := 2) (by omega)
    simpa using this
  rw [this, two_nsmul]

theorem left_eq_right (r : ℕ) :
    leftProgram.log (residue r (fun _ => ⟨3, r⟩)) (fun _ => 2) = rightProgram.log (residue r (fun _ => ⟨3, r⟩)) (fun _ => 2) := by
  simp [leftProgram, rightProgram, GExpr.log, residue, AExpr.value]
  norm_num

/-- `generator * 3 == A + generator * 1` for the double `A` of the generator. -/
example : (do
    let L ← leftProgram.runW .debug p256 (fun _ => wH) (fun _ => ⟨3, p256.getOrder⟩)
    let M ← rightProgram.runW .debug p256 (fun _ => wH) (fun _ => ⟨3, p256.getOrder⟩)
    L.eq M) = R.ok true := by
  rw [C121_weierstrass_log p256_p p256 p256_valid (by decide +kernel) .debug wG wg wG_eq wG_den wg_order (fun _ => wH) (fun _ => 2)
    (fun _ => by rw [two_val _ (by decide +kernel)]; exact wH_den) (fun _ => ⟨3, p256.getOrder⟩) (fun _ => ⟨rfl, by decide, by decide +kernel⟩) leftProgram rightProgram
    left_form right_form (.inl ⟨left_nonzero _ (by decide +kernel), right_nonzero _ (by decide +kernel)⟩), decide_eq_true (left_eq_right _)]

/-- `generator * 3 == A + generator * 1` for the double `A` of the generator. -/
example : (do
    let L ← leftProgram.runM .debug curve25519 (fun _ => mH) (fun _ => ⟨3, curve25519.getOrder⟩)
    let M ← rightProgram.runM .debug curve25519 (fun _ => mH) (fun _ => ⟨3, curve25519.getOrder⟩)
    L.eq M) = R.ok true := by
  rw [C121_montgomery_log curve25519_p curve25519 curve25519_valid (by decide +kernel) .debug mG mg mG_eq mG_den mg_order (fun _ => mH) (fun _ => 2)
    (fun _ => by rw [two_val _ (by decide +kernel)]; exact mH_den) (fun _ => ⟨3, curve25519.getOrder⟩) (fun _ => ⟨rfl, by decide, by decide +kernel⟩) leftProgram rightProgram
    left_form right_form (.inl ⟨left_nonzero _ (by decide +kernel), right_nonzero _ (by decide +kernel)⟩), decide_eq_true (left_eq_right _)]

/-- `generator * 3 == A + generator * 1` for the double `A` of the generator. -/
example : (do
    let L ← leftProgram.runE .debug edwards25519 (fun _ => eH) (fun _ => ⟨3, edwards25519.getOrder⟩)
    let M ← rightProgram.runE .debug edwards25519 (fun _ => eH) (fun _ => ⟨3, edwards25519.getOrder⟩)
    L.eq M) = R.ok true := by
  rw [C121_edwards_log curve25519_p edwards25519 edwards25519_valid (by decide +kernel) .debug eG eg eG_eq eG_den eg_order (fun _ => eH) (fun _ => 2)
    (fun _ => by rw [two_val _ (by decide +kernel)]; exact eH_den) (fun _ => ⟨3, edwards25519.getOrder⟩) (fun _ => ⟨rfl, by decide, by decide +kernel⟩) leftProgram rightProgram
    left_form right_form (.inl ⟨left_nonzero _ (by decide +kernel), right_nonzero _ (by decide +kernel)⟩), decide_eq_true (left_eq_right _)]

theorem left_value (r : ℕ) (h : 9 < r) {G : Type*} [AddCommGroup G] (g : G) (ho : addOrderOf g = r) (ρ : ℕ → G) :
    leftProgram.value g (residue r (fun _ => ⟨3, r⟩)) ρ ≠ 0 := by
  have h3 : (3 : ZMod r).val = 3 := by
    have := ZMod.val_natCast_of_lt (n := r) (a := 3) (by omega)
    simpa using this
  have : leftProgram.value g (residue r (fun _ => ⟨3, r⟩)) ρ = 3 • g := by simp [leftProgram, GExpr.value, residue, AExpr.value, h3]
  rw [this]
  intro h0
  have := Nat.le_of_dvd (by norm_num) (addOrderOf_dvd_of_nsmul_eq_zero h0)
  omega

example := C121_weierstrass_bytes p256_p p256 p256_valid (by decide +kernel) (by decide +kernel) .debug wG wg wG_eq wG_den (fun _ => wH) (fun _ => wg + wg)
  (fun _ => wH_den) (fun _ => ⟨3, p256.getOrder⟩) (fun _ => ⟨rfl, by decide, by decide +kernel⟩) leftProgram left_form (.inl (left_nonzero _ (by decide +kernel))) (left_value _ (by decide +kernel) _ wg_order _) true

example := C121_montgomery_bytes curve25519_p curve25519 curve25519_valid (by decide +kernel) (by decide +kernel) .debug mG mg mG_eq mG_den (fun _ => mH) (fun _ => mg + mg)
  (fun _ => mH_den) (fun _ => ⟨3, curve25519.getOrder⟩) (fun _ => ⟨rfl, by decide, by decide +kernel⟩) leftProgram left_form (.inl (left_nonzero _ (by decide +kernel))) (left_value _ (by decide +kernel) _ mg_order _) true

example := C121_edwards_bytes curve25519_p edwards25519 edwards25519_valid (by decide +kernel) (by decide +kernel) .debug eG eg eG_eq eG_den (fun _ => eH) (fun _ => eg + eg)
  (fun _ => eH_den) (fun _ => ⟨3, edwards25519.getOrder⟩) (fun _ => ⟨rfl, by decide, by decide +kernel⟩) leftProgram left_form (.inl (left_nonzero _ (by decide +kernel))) true

example := @C121_named_weierstrass _ (List.getElem_mem (l := Inst.weierstrassList) (n := 0) (by decide))

example := @C121_named_montgomery _ (List.getElem_mem (l := Inst.montgomeryList) (n := 0) (by decide))

example := @C121_named_edwards _ (List.getElem_mem (l := Inst.edwardsList) (n := 0) (by decide))

end Redox.Witness
