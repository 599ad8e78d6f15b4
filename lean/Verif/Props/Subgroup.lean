import Verif.Props.ActionProps
import Verif.Props.BlsIsoCount

/-!
# C99 and C100: points outside the subgroup of the generator

Scalars are integers modulo the order `r` of the generator, but most points of a curve with a cofactor are not killed by `r`.
-/

set_option linter.unusedSectionVars false
set_option maxRecDepth 100000

namespace Redox.Props.Subgroup

open Spec Redox.Inst

section group
variable {G : Type*} [AddCommGroup G]

/-- In a finite group whose order is not divisible by `r²`, the elements killed by the prime `r` are the multiples of any one of order `r`. -/
theorem killed_iff [Finite G] {r : ℕ} {g : G} (hr : r.Prime) (hg : addOrderOf g = r) (hc : ¬ r * r ∣ Nat.card G) (A : G) :
    r • A = 0 ↔ ∃ n : ℤ, A = n • g := by
  have hg0 : r • g = 0 := by rw [← hg]; exact addOrderOf_nsmul_eq_zero g
  constructor
  · intro h0
    by_contra hne
    push Not at hne
    obtain ⟨H, hH, -⟩ := Cof.rank_two hr (P := g) (Q := A) hg0 (by
      rintro rfl
      rw [addOrderOf_zero] at hg
      exact hr.one_lt.ne hg) h0 hne
    have := H.card_addSubgroup_dvd_card
    rw [hH, sq] at this
    exact hc this
  · rintro ⟨n, rfl⟩
    rw [smul_comm, hg0, smul_zero]

theorem sq_not_dvd {r h : ℕ} (hr : 1 ≤ r) (h0 : h ≠ 0) (hh : h < r) : ¬ r * r ∣ r * h := fun hd => by
  have := Nat.le_of_dvd (by omega) (Nat.dvd_of_mul_dvd_mul_left hr hd)
  omega

theorem integer_iff (A : G) (r : ℕ) (k : ℤ) : (k % r) • A = k • A ↔ (k / r) • (r • A) = 0 := by
  have h1 : k • A = (k / r) • (r • A) + (k % r) • A := by
    rw [← natCast_zsmul, ← mul_smul, ← add_zsmul, Int.ediv_mul_add_emod]
  rw [h1, right_eq_add]

theorem minus_one_mod {r : ℕ} (hr : 2 ≤ r) : (-1 : ℤ) % r = r - 1 := by
  rw [← Int.add_emod_right, Int.emod_eq_of_lt (by omega) (by omega)]
  ring

theorem minus_one_iff (A : G) {r : ℕ} (hr : 2 ≤ r) : ((-1 : ℤ) % r) • A = -A ↔ r • A = 0 := by
  rw [minus_one_mod hr, sub_zsmul, one_zsmul, add_eq_right, natCast_zsmul]

/-- A secret of X25519 (RFC 7748): a multiple of eight from `2 ^ 254` up to `2 ^ 255`. -/
def Clamped (k : ℤ) : Prop := 2 ^ 254 ≤ k ∧ k < 2 ^ 255 ∧ 8 ∣ k

/-- The order of the two 25519 curves. -/
def ord25519 : ℕ := 2 ^ 252 + 27742317777372353535851937790883648493

theorem clamped_div {k : ℤ} (h : Clamped k) : 3 ≤ k / ord25519 ∧ k / ord25519 ≤ 7 := by
  obtain ⟨h1, h2, -⟩ := h
  constructor
  · rw [Int.le_ediv_iff_mul_le (by decide)]
    exact le_trans (by decide) h1
  · rw [← Int.lt_add_one_iff, Int.ediv_lt_iff_lt_mul (by decide)]
    exact lt_of_lt_of_le h2 (by decide)

theorem clamped_not_dvd {k : ℤ} (h : Clamped k) : ¬ (ord25519 : ℤ) ∣ k := by
  rintro ⟨q, rfl⟩
  obtain ⟨h3, h7⟩ := clamped_div h
  rw [Int.mul_ediv_cancel_left _ (by decide)] at h3 h7
  obtain ⟨-, -, h8⟩ := h
  have : (8 : ℤ) ∣ q := (show IsCoprime (8 : ℤ) (ord25519 : ℤ) by decide).dvd_of_dvd_mul_left h8
  omega

/-- What a clamped secret does to elements with a component of order eight. -/
theorem clamped_ne {A : G} {k : ℤ} (h : Clamped k) (hA : 8 • (ord25519 • A) = 0) (hA4 : 4 • (ord25519 • A) ≠ 0) :
    (k % ord25519) • A ≠ k • A := by
  rw [Ne, integer_iff]
  obtain ⟨h3, h7⟩ := clamped_div h
  have : Fact (Nat.Prime 2) := ⟨Nat.prime_two⟩
  have ho : addOrderOf (ord25519 • A) = 2 ^ (2 + 1) := addOrderOf_eq_prime_pow hA4 hA
  rw [← addOrderOf_dvd_iff_zsmul_eq_zero, ho]
  intro h8
  have h8' : (8 : ℤ) ∣ k / ord25519 := by exact_mod_cast h8
  omega

theorem clamped_small {A : G} {k : ℤ} (h : Clamped k) (hA : 8 • A = 0) : k • A = 0 := by
  obtain ⟨-, -, q, rfl⟩ := h
  rw [mul_comm, mul_smul, show (8 : ℤ) • A = 8 • A from natCast_zsmul A 8, hA, smul_zero]

theorem eight_order {A : G} (hA : 8 • A = 0) : ord25519 • A = 5 • A := by
  rw [show ord25519 = (2 ^ 249 + 3467789722171544191981492223860456061) * 8 + 5 by decide +kernel, add_nsmul, mul_nsmul', hA, nsmul_zero,
    zero_add]

end group

section
variable (p : ℕ) [Fact p.Prime]

/-- C99, Weierstrass: the test "multiply by the order and compare with the identity" answers `true` at every point in release builds and panics
in debug builds, because the order is the zero scalar. -/
theorem _root_.Redox.Props.C99_weierstrass_order (e : Weierstrass.Curve) (h : WValid p e) (P : Weierstrass.Point) (A : (wGroup p e).Point)
    (hP : WDenotes p e P A) :
    (do (← P.mul .release (← e.newScalar e.getOrder)).eq (← e.identity)) = R.ok true ∧
    (do (← P.mul .debug (← e.newScalar e.getOrder)).eq (← e.identity)) = R.panic .overflow := by
  have hr1 : 1 ≤ e.r := h.order_prime.one_le
  obtain ⟨I, eI, dI⟩ : ∃ I, e.identity = R.ok I ∧ WDenotes p e I 0 := by
    obtain ⟨I, h1, h2, -⟩ := C22_identity p e h.curve
    exact ⟨I, h1, h2⟩
  obtain ⟨K, eK, dK⟩ := C25_mul_partial p e h.curve h.complete h.order_bits .release P A hP ⟨0, e.r⟩
    ⟨rfl, le_rfl, Int.natCast_pos.2 hr1⟩ (Or.inr rfl)
  rw [show (⟨0, e.r⟩ : Scalar).k = 0 from rfl, zero_zsmul] at dK
  constructor
  · simp only [Weierstrass.Curve.getOrder, Weierstrass.Curve.newScalar, scalar_new_eq e.r hr1, R.ok_bind, Int.emod_self, eK, eI,
      C27_eq p e _ _ _ _ dK dI, decide_true]
  · simp only [Weierstrass.Curve.getOrder, Weierstrass.Curve.newScalar, scalar_new_eq e.r hr1, R.ok_bind, Int.emod_self,
      C25_refuted_zero p e h.curve P hP.1, R.panic_bind]

/-- C99, Weierstrass: the test `P * new_scalar(-1) == -P` answers whether the order kills the point, for every point of every valid curve, in both
profiles. -/
theorem _root_.Redox.Props.C99_weierstrass (e : Weierstrass.Curve) (h : WValid p e) (prof : Profile) (P : Weierstrass.Point) (A : (wGroup p e).Point)
    (hP : WDenotes p e P A) :
    ∃ b, (do (← P.mul prof (← e.newScalar (-1))).eq (← P.neg)) = R.ok b ∧ (b = true ↔ e.getOrder • A = 0) := by
  have hr1 : 1 ≤ e.r := h.order_prime.one_le
  have hr2 : 2 ≤ e.r := h.order_prime.two_le
  have hr0 : (0 : ℤ) < e.r := by exact_mod_cast hr1
  obtain ⟨K, eK, dK⟩ := C25_mul_partial p e h.curve h.complete h.order_bits prof P A hP ⟨-1 % e.r, e.r⟩
    ⟨rfl, Int.emod_nonneg _ hr0.ne', Int.emod_lt_of_pos _ hr0⟩ (Or.inl (by
      simp only [minus_one_mod hr2]
      omega))
  obtain ⟨V, eV, dV⟩ := (C23_group_law p e h.curve h.complete P P _ _ hP hP).2.2
  refine ⟨decide (((-1 : ℤ) % e.r) • A = -A), ?_, ?_⟩
  · simp only [Weierstrass.Curve.newScalar, scalar_new_eq e.r hr1, R.ok_bind, eK, eV, C27_eq p e _ _ _ _ dK dV]
  · rw [decide_eq_true_iff, minus_one_iff A hr2]
    rfl

/-- C100, Weierstrass: for every point and every integer `k`, `P * new_scalar(k)` is a point `B`, and it is `k` times the point exactly if the
part of `k` that the reduction modulo the order drops kills the point. -/
theorem _root_.Redox.Props.C100_weierstrass_exact_partial (e : Weierstrass.Curve) (h : WValid p e) (prof : Profile) (P : Weierstrass.Point) (A : (wGroup p e).Point)
    (hP : WDenotes p e P A) (k : ℤ) (h0 : ¬ (e.getOrder : ℤ) ∣ k ∨ prof = .release) :
    ∃ B, WReturns p e (do P.mul prof (← e.newScalar k)) B ∧ (B = k • A ↔ (k / e.getOrder) • (e.getOrder • A) = 0) := by
  have hr1 : 1 ≤ e.r := h.order_prime.one_le
  have hr0 : (0 : ℤ) < e.r := by exact_mod_cast hr1
  refine ⟨(k % e.r) • A, ?_, integer_iff A e.r k⟩
  simp only [Weierstrass.Curve.newScalar, scalar_new_eq e.r hr1, R.ok_bind]
  exact C25_mul_partial p e h.curve h.complete h.order_bits prof P A hP ⟨k % e.r, e.r⟩ ⟨rfl, Int.emod_nonneg _ hr0.ne', Int.emod_lt_of_pos _ hr0⟩
    (h0.imp (fun h h' => h (Int.dvd_of_emod_eq_zero h')) id)

/-- C99, Montgomery: the test "multiply by the order and compare with the identity" answers `true` at every point in release builds and panics
in debug builds, because the order is the zero scalar. -/
theorem _root_.Redox.Props.C99_montgomery_order (e : Montgomery.Curve) (h : MValid p e) (P : Montgomery.Point) (A : (mGroup p e).Point)
    (hP : MDenotes p e P A) :
    (do (← P.mul .release (← e.newScalar e.getOrder)).eq (← e.identity)) = R.ok true ∧
    (do (← P.mul .debug (← e.newScalar e.getOrder)).eq (← e.identity)) = R.panic .overflow := by
  have hr1 : 1 ≤ e.r := h.order_prime.one_le
  obtain ⟨I, eI, dI⟩ : ∃ I, e.identity = R.ok I ∧ MDenotes p e I 0 := Mo.identity_denotes h.curve
  obtain ⟨K, eK, dK⟩ := C33_mul_partial p e h.curve h.b_one h.complete h.order_bits .release P A hP ⟨0, e.r⟩
    ⟨rfl, le_rfl, Int.natCast_pos.2 hr1⟩ (Or.inr rfl)
  rw [show (⟨0, e.r⟩ : Scalar).k = 0 from rfl, zero_zsmul] at dK
  constructor
  · simp only [Montgomery.Curve.getOrder, Montgomery.Curve.newScalar, scalar_new_eq e.r hr1, R.ok_bind, Int.emod_self, eK, eI,
      (C32_eq p e _ _ _ _ dK dI).1, decide_true]
  · simp only [Montgomery.Curve.getOrder, Montgomery.Curve.newScalar, scalar_new_eq e.r hr1, R.ok_bind, Int.emod_self,
      C33_refuted_zero p e h.curve P hP.1, R.panic_bind]

/-- C99, Montgomery: the test `P * new_scalar(-1) == -P` answers whether the order kills the point, for every point of every valid curve, in both
profiles. -/
theorem _root_.Redox.Props.C99_montgomery (e : Montgomery.Curve) (h : MValid p e) (prof : Profile) (P : Montgomery.Point) (A : (mGroup p e).Point)
    (hP : MDenotes p e P A) :
    ∃ b, (do (← P.mul prof (← e.newScalar (-1))).eq (← P.neg)) = R.ok b ∧ (b = true ↔ e.getOrder • A = 0) := by
  have hr1 : 1 ≤ e.r := h.order_prime.one_le
  have hr2 : 2 ≤ e.r := h.order_prime.two_le
  have hr0 : (0 : ℤ) < e.r := by exact_mod_cast hr1
  obtain ⟨K, eK, dK⟩ := C33_mul_partial p e h.curve h.b_one h.complete h.order_bits prof P A hP ⟨-1 % e.r, e.r⟩
    ⟨rfl, Int.emod_nonneg _ hr0.ne', Int.emod_lt_of_pos _ hr0⟩ (Or.inl (by
      simp only [minus_one_mod hr2]
      omega))
  obtain ⟨V, eV, dV⟩ := (C32_group_law_partial p e h.curve h.b_one h.complete P P _ _ hP hP).2.2
  refine ⟨decide (((-1 : ℤ) % e.r) • A = -A), ?_, ?_⟩
  · simp only [Montgomery.Curve.newScalar, scalar_new_eq e.r hr1, R.ok_bind, eK, eV, (C32_eq p e _ _ _ _ dK dV).1]
  · rw [decide_eq_true_iff, minus_one_iff A hr2]
    rfl

/-- C100, Montgomery: for every point and every integer `k`, `P * new_scalar(k)` is a point `B`, and it is `k` times the point exactly if the
part of `k` that the reduction modulo the order drops kills the point. -/
theorem _root_.Redox.Props.C100_montgomery_exact_partial (e : Montgomery.Curve) (h : MValid p e) (prof : Profile) (P : Montgomery.Point) (A : (mGroup p e).Point)
    (hP : MDenotes p e P A) (k : ℤ) (h0 : ¬ (e.getOrder : ℤ) ∣ k ∨ prof = .release) :
    ∃ B, MReturns p e (do P.mul prof (← e.newScalar k)) B ∧ (B = k • A ↔ (k / e.getOrder) • (e.getOrder • A) = 0) := by
  have hr1 : 1 ≤ e.r := h.order_prime.one_le
  have hr0 : (0 : ℤ) < e.r := by exact_mod_cast hr1
  refine ⟨(k % e.r) • A, ?_, integer_iff A e.r k⟩
  simp only [Montgomery.Curve.newScalar, scalar_new_eq e.r hr1, R.ok_bind]
  exact C33_mul_partial p e h.curve h.b_one h.complete h.order_bits prof P A hP ⟨k % e.r, e.r⟩ ⟨rfl, Int.emod_nonneg _ hr0.ne', Int.emod_lt_of_pos _ hr0⟩
    (h0.imp (fun h h' => h (Int.dvd_of_emod_eq_zero h')) id)

/-- C99, Edwards: the test "multiply by the order and compare with the identity" answers `true` at every point in release builds and panics
in debug builds, because the order is the zero scalar. -/
theorem _root_.Redox.Props.C99_edwards_order (e : Edwards.Curve) (h : EValid p e) [ECurve p e] (P : Edwards.Point) (A : eGroup p e)
    (hP : EDenotes p e P A) :
    (do (← P.mul .release (← e.newScalar e.getOrder)).eq (← e.identity)) = R.ok true ∧
    (do (← P.mul .debug (← e.newScalar e.getOrder)).eq (← e.identity)) = R.panic .overflow := by
  have hr1 : 1 ≤ e.r := h.order_prime.one_le
  obtain ⟨I, eI, dI⟩ : ∃ I, e.identity = R.ok I ∧ EDenotes p e I 0 := ⟨_, ELink.identity_pt ECurve.params, ELink.identity_denotes⟩
  obtain ⟨K, eK, dK⟩ := C37_mul_partial p e h.order_bits .release P A hP ⟨0, e.r⟩
    ⟨rfl, le_rfl, Int.natCast_pos.2 hr1⟩ (Or.inr rfl)
  rw [show (⟨0, e.r⟩ : Scalar).k = 0 from rfl, zero_zsmul] at dK
  constructor
  · simp only [Edwards.Curve.getOrder, Edwards.Curve.newScalar, scalar_new_eq e.r hr1, R.ok_bind, Int.emod_self, eK, eI,
      C36_eq p e _ _ _ _ dK dI, decide_true]
  · simp only [Edwards.Curve.getOrder, Edwards.Curve.newScalar, scalar_new_eq e.r hr1, R.ok_bind, Int.emod_self,
      C37_refuted_zero p e h.curve.params P hP.1, R.panic_bind]

/-- C99, Edwards: the test `P * new_scalar(-1) == -P` answers whether the order kills the point, for every point of every valid curve, in both
profiles. -/
theorem _root_.Redox.Props.C99_edwards (e : Edwards.Curve) (h : EValid p e) [ECurve p e] (prof : Profile) (P : Edwards.Point) (A : eGroup p e)
    (hP : EDenotes p e P A) :
    ∃ b, (do (← P.mul prof (← e.newScalar (-1))).eq (← P.neg)) = R.ok b ∧ (b = true ↔ e.getOrder • A = 0) := by
  have hr1 : 1 ≤ e.r := h.order_prime.one_le
  have hr2 : 2 ≤ e.r := h.order_prime.two_le
  have hr0 : (0 : ℤ) < e.r := by exact_mod_cast hr1
  obtain ⟨K, eK, dK⟩ := C37_mul_partial p e h.order_bits prof P A hP ⟨-1 % e.r, e.r⟩
    ⟨rfl, Int.emod_nonneg _ hr0.ne', Int.emod_lt_of_pos _ hr0⟩ (Or.inl (by
      simp only [minus_one_mod hr2]
      omega))
  obtain ⟨V, eV, dV⟩ := (C36_group_law p e P P _ _ hP hP).2.2.1
  refine ⟨decide (((-1 : ℤ) % e.r) • A = -A), ?_, ?_⟩
  · simp only [Edwards.Curve.newScalar, scalar_new_eq e.r hr1, R.ok_bind, eK, eV, C36_eq p e _ _ _ _ dK dV]
  · rw [decide_eq_true_iff, minus_one_iff A hr2]
    rfl

/-- C100, Edwards: for every point and every integer `k`, `P * new_scalar(k)` is a point `B`, and it is `k` times the point exactly if the
part of `k` that the reduction modulo the order drops kills the point. -/
theorem _root_.Redox.Props.C100_edwards_exact_partial (e : Edwards.Curve) (h : EValid p e) [ECurve p e] (prof : Profile) (P : Edwards.Point) (A : eGroup p e)
    (hP : EDenotes p e P A) (k : ℤ) (h0 : ¬ (e.getOrder : ℤ) ∣ k ∨ prof = .release) :
    ∃ B, EReturns p e (do P.mul prof (← e.newScalar k)) B ∧ (B = k • A ↔ (k / e.getOrder) • (e.getOrder • A) = 0) := by
  have hr1 : 1 ≤ e.r := h.order_prime.one_le
  have hr0 : (0 : ℤ) < e.r := by exact_mod_cast hr1
  refine ⟨(k % e.r) • A, ?_, integer_iff A e.r k⟩
  simp only [Edwards.Curve.newScalar, scalar_new_eq e.r hr1, R.ok_bind]
  exact C37_mul_partial p e h.order_bits prof P A hP ⟨k % e.r, e.r⟩ ⟨rfl, Int.emod_nonneg _ hr0.ne', Int.emod_lt_of_pos _ hr0⟩
    (h0.imp (fun h h' => h (Int.dvd_of_emod_eq_zero h')) id)

end

/-! ## The named curves -/

/-- C99 on the seven Weierstrass curves: the test `P * new_scalar(-1) == -P` answers whether `P` is a multiple of the generator. -/
theorem _root_.Redox.Props.C99_named_weierstrass : ∀ t ∈ Inst.weierstrassList, ∃ (_ : Fact t.2.Prime) (e : Weierstrass.Curve), t.1 = R.ok e ∧
    ∃ G g, e.getGenerator = R.ok G ∧ WDenotes t.2 e G g ∧
      ∀ (prof : Profile) (P : Weierstrass.Point) (A : (wGroup t.2 e).Point), WDenotes t.2 e P A →
        ∃ b, (do (← P.mul prof (← e.newScalar (-1))).eq (← P.neg)) = R.ok b ∧ (b = true ↔ ∃ n : ℤ, A = n • g) := by
  have key : ∀ (c : R Weierstrass.Curve) (p : ℕ) [Fact p.Prime] (e : Weierstrass.Curve), c = R.ok e → WValid p e →
      ¬ e.r * e.r ∣ Nat.card (wGroup p e).Point → ∃ (_ : Fact p.Prime) (e : Weierstrass.Curve), c = R.ok e ∧
    ∃ G g, e.getGenerator = R.ok G ∧ WDenotes p e G g ∧
      ∀ (prof : Profile) (P : Weierstrass.Point) (A : (wGroup p e).Point), WDenotes p e P A →
        ∃ b, (do (← P.mul prof (← e.newScalar (-1))).eq (← P.neg)) = R.ok b ∧ (b = true ↔ ∃ n : ℤ, A = n • g) := by
    intro c p _ e hc hv hcard
    have := Inst.w_finite hv.curve
    obtain ⟨G, g, hG, hg, ho⟩ := hv.generator
    refine ⟨inferInstance, e, hc, G, g, hG, hg, fun prof P A hP => ?_⟩
    obtain ⟨b, hb, hi⟩ := C99_weierstrass p e hv prof P A hP
    exact ⟨b, hb, hi.trans (killed_iff hv.order_prime ho hcard A)⟩
  have key1 : ∀ (c : R Weierstrass.Curve) (p : ℕ) [Fact p.Prime] (e : Weierstrass.Curve), c = R.ok e → WValid p e →
      2 * p + 1 < 3 * e.r → ∃ (_ : Fact p.Prime) (e : Weierstrass.Curve), c = R.ok e ∧
    ∃ G g, e.getGenerator = R.ok G ∧ WDenotes p e G g ∧
      ∀ (prof : Profile) (P : Weierstrass.Point) (A : (wGroup p e).Point), WDenotes p e P A →
        ∃ b, (do (← P.mul prof (← e.newScalar (-1))).eq (← P.neg)) = R.ok b ∧ (b = true ↔ ∃ n : ℤ, A = n • g) := by
    intro c p _ e hc hv hb
    have hr2 : 2 ≤ e.r := hv.order_prime.two_le
    have := sq_not_dvd (r := e.r) (h := 1) (by omega) one_ne_zero (by omega)
    exact key c p e hc hv (by rw [Inst.card_of_valid hv hb]; simpa using this)
  rw [Inst.weierstrassList, Inst.p256_p_eq, Inst.p384_p_eq, Inst.p521_p_eq, Inst.secp256k1_p_eq, Inst.bls_p_eq]
  simp only [List.forall_mem_cons]
  exact ⟨key1 _ _ _ p256_eq p256_valid (by decide +kernel), key1 _ _ _ p384_eq p384_valid (by decide +kernel),
    key1 _ _ _ p521_eq p521_valid (by decide +kernel), key1 _ _ _ secp256k1_eq secp256k1_valid (by decide +kernel),
    key1 _ _ _ secp256k1_3iso_eq secp256k1_3iso_valid (by decide +kernel),
    key _ _ _ bls12381g1_eq bls12381g1_valid (by rw [Inst.card_bls]; decide +kernel),
    key _ _ _ bls12381g1_11iso_eq bls12381g1_11iso_valid (by
      rw [show Nat.card (wGroup bls12381g1_p bls12381g1_11iso).Point = _ from Isog.card_bls_iso]; decide +kernel), by simp⟩

/-- C99 on the two Montgomery curves: the test `P * new_scalar(-1) == -P` answers whether `P` is a multiple of the generator. -/
theorem _root_.Redox.Props.C99_named_montgomery : ∀ t ∈ Inst.montgomeryList, ∃ (_ : Fact t.2.Prime) (e : Montgomery.Curve), t.1 = R.ok e ∧
    ∃ G g, e.getGenerator = R.ok G ∧ MDenotes t.2 e G g ∧
      ∀ (prof : Profile) (P : Montgomery.Point) (A : (mGroup t.2 e).Point), MDenotes t.2 e P A →
        ∃ b, (do (← P.mul prof (← e.newScalar (-1))).eq (← P.neg)) = R.ok b ∧ (b = true ↔ ∃ n : ℤ, A = n • g) := by
  have key : ∀ (c : R Montgomery.Curve) (p : ℕ) [Fact p.Prime] (e : Montgomery.Curve), c = R.ok e → MValid p e →
      Nat.card ((mGroup p e).Point) = e.r * e.h → e.h < e.r → e.h ≠ 0 → ∃ (_ : Fact p.Prime) (e : Montgomery.Curve), c = R.ok e ∧
    ∃ G g, e.getGenerator = R.ok G ∧ MDenotes p e G g ∧
      ∀ (prof : Profile) (P : Montgomery.Point) (A : (mGroup p e).Point), MDenotes p e P A →
        ∃ b, (do (← P.mul prof (← e.newScalar (-1))).eq (← P.neg)) = R.ok b ∧ (b = true ↔ ∃ n : ℤ, A = n • g) := by
    intro c p _ e hc hv hcard hh h0
    have := Inst.m_finite hv.curve
    obtain ⟨G, g, hG, hg, ho⟩ := hv.generator
    refine ⟨inferInstance, e, hc, G, g, hG, hg, fun prof P A hP => ?_⟩
    obtain ⟨b, hb, hi⟩ := C99_montgomery p e hv prof P A hP
    exact ⟨b, hb, hi.trans (killed_iff hv.order_prime ho (by rw [hcard]; exact sq_not_dvd hv.order_prime.one_le h0 hh) A)⟩
  rw [Inst.montgomeryList, Inst.c25519_p_eq, Inst.c448_p_eq]
  simp only [List.forall_mem_cons]
  exact ⟨key _ _ _ curve25519_eq curve25519_valid Inst.card_curve25519 (by decide +kernel) (by decide +kernel),
    key _ _ _ curve448_eq curve448_valid Inst.card_curve448 (by decide +kernel) (by decide +kernel), by simp⟩

/-- C99 on the two Edwards curves: the test `P * new_scalar(-1) == -P` answers whether `P` is a multiple of the generator. -/
theorem _root_.Redox.Props.C99_named_edwards : ∀ t ∈ Inst.edwardsList, ∃ (_ : Fact t.2.Prime) (e : Edwards.Curve) (_ : ECurve t.2 e), t.1 = R.ok e ∧
    ∃ G g, e.getGenerator = R.ok G ∧ EDenotes t.2 e G g ∧
      ∀ (prof : Profile) (P : Edwards.Point) (A : eGroup t.2 e), EDenotes t.2 e P A →
        ∃ b, (do (← P.mul prof (← e.newScalar (-1))).eq (← P.neg)) = R.ok b ∧ (b = true ↔ ∃ n : ℤ, A = n • g) := by
  have key : ∀ (c : R Edwards.Curve) (p : ℕ) [Fact p.Prime] (e : Edwards.Curve) [ECurve p e], c = R.ok e → EValid p e →
      Nat.card (eGroup p e) = e.r * e.h → e.h < e.r → e.h ≠ 0 → ∃ (_ : Fact p.Prime) (e : Edwards.Curve) (_ : ECurve p e), c = R.ok e ∧
    ∃ G g, e.getGenerator = R.ok G ∧ EDenotes p e G g ∧
      ∀ (prof : Profile) (P : Edwards.Point) (A : eGroup p e), EDenotes p e P A →
        ∃ b, (do (← P.mul prof (← e.newScalar (-1))).eq (← P.neg)) = R.ok b ∧ (b = true ↔ ∃ n : ℤ, A = n • g) := by
    intro c p _ e _ hc hv hcard hh h0
    have := Cof.finiteE (a := val p e.a) (d := val p e.d) hv.curve.params.odd
    obtain ⟨G, g, hG, hg, ho⟩ := hv.generator
    refine ⟨inferInstance, e, inferInstance, hc, G, g, hG, hg, fun prof P A hP => ?_⟩
    obtain ⟨b, hb, hi⟩ := C99_edwards p e hv prof P A hP
    exact ⟨b, hb, hi.trans (killed_iff hv.order_prime ho (by rw [hcard]; exact sq_not_dvd hv.order_prime.one_le h0 hh) A)⟩
  rw [Inst.edwardsList, Inst.c25519_p_eq, Inst.c448_p_eq]
  simp only [List.forall_mem_cons]
  have := edwards25519_valid.curve
  have := edwards448_valid.curve
  exact ⟨key _ _ _ edwards25519_eq edwards25519_valid Inst.card_edwards25519 (by decide +kernel) (by decide +kernel),
    key _ _ _ edwards448_eq edwards448_valid Inst.card_edwards448 (by decide +kernel) (by decide +kernel), by simp⟩

/-- C100 is refuted on `CURVE25519`: a secret clamped as in RFC 7748 never gives the right multiple of a point with a component of order eight,
in either profile. In particular a point of order eight is not sent to the identity, as every clamped secret should. -/
theorem _root_.Redox.Props.C100_refuted_curve25519 : ∃ (_ : Fact (2 ^ 255 - 19).Prime) (e : Montgomery.Curve), CURVE25519 = R.ok e ∧
    (∀ (prof : Profile) (P : Montgomery.Point) (A : (mGroup (2 ^ 255 - 19) e).Point) (k : ℤ), MDenotes (2 ^ 255 - 19) e P A → Clamped k →
      ∃ B, MReturns (2 ^ 255 - 19) e (do P.mul prof (← e.newScalar k)) B ∧
        (4 • (e.getOrder • A) ≠ 0 → B ≠ k • A) ∧ (8 • A = 0 → k • A = 0) ∧ (8 • A = 0 → 4 • A ≠ 0 → B ≠ 0)) ∧
    ∃ P A, MDenotes (2 ^ 255 - 19) e P A ∧ 8 • A = 0 ∧ 4 • A ≠ 0 := by
  rw [Inst.c25519_p_eq]
  have hv := curve25519_valid
  have ho : curve25519.getOrder = ord25519 := by decide +kernel
  refine ⟨inferInstance, _, curve25519_eq, ?_, ?_⟩
  · intro prof P A k hP hk
    obtain ⟨B, hB, hi⟩ := C100_montgomery_exact_partial _ _ hv prof P A hP k (Or.inl (by rw [ho]; exact clamped_not_dvd hk))
    have h1 : 4 • (curve25519.getOrder • A) ≠ 0 → B ≠ k • A := by
      intro h4
      rw [Ne, hi, ← integer_iff, ho]
      refine clamped_ne hk ?_ (by rwa [ho] at h4)
      rw [← mul_nsmul']
      have : ord25519 * 8 = Nat.card ((mGroup curve25519_p curve25519).Point) := by
        rw [Inst.card_curve25519]; decide +kernel
      rw [mul_comm, this]
      exact card_nsmul_eq_zero'
    refine ⟨B, hB, h1, clamped_small hk, fun h8 h4 hB0 => ?_⟩
    refine h1 ?_ (by rw [hB0, clamped_small hk h8])
    rw [ho, eight_order h8, ← mul_nsmul', show 4 * 5 = 4 + 2 * 8 by norm_num, add_nsmul, mul_nsmul', h8, nsmul_zero, add_zero]
    exact h4
  · obtain ⟨B, hB⟩ := Inst.m_order hv 325606250916557431795983626356110631294008115727848805560023387167927233504
      25869741026945134960544184956460972567356779614910045322022475500191642319642 2 (by decide +kernel) (by decide +kernel)
      (by decide +kernel) (by decide +kernel) (by decide +kernel)
    have hd : ∃ P, MDenotes curve25519_p curve25519 P B := by
      cases B with
      | zero => exact (Mo.identity_denotes hv.curve).imp fun _ h => h.2
      | some x y hh => exact ⟨_, MLink.denotes_iff.2 ⟨x, y, 1, rfl, one_ne_zero, (mul_one _).symm, (mul_one _).symm⟩⟩
    obtain ⟨P, hP⟩ := hd
    refine ⟨P, B, hP, ?_, fun h => ?_⟩
    · have := addOrderOf_nsmul_eq_zero B
      rwa [hB] at this
    · have := addOrderOf_dvd_of_nsmul_eq_zero h
      rw [hB] at this
      omega

/-- C100 is refuted on `EDWARDS25519`: a secret clamped as in RFC 7748 never gives the right multiple of a point with a component of order eight,
in either profile. In particular a point of order eight is not sent to the identity, as every clamped secret should. -/
theorem _root_.Redox.Props.C100_refuted_edwards25519 : ∃ (_ : Fact (2 ^ 255 - 19).Prime) (e : Edwards.Curve) (_ : ECurve (2 ^ 255 - 19) e), EDWARDS25519 = R.ok e ∧
    (∀ (prof : Profile) (P : Edwards.Point) (A : eGroup (2 ^ 255 - 19) e) (k : ℤ), EDenotes (2 ^ 255 - 19) e P A → Clamped k →
      ∃ B, EReturns (2 ^ 255 - 19) e (do P.mul prof (← e.newScalar k)) B ∧
        (4 • (e.getOrder • A) ≠ 0 → B ≠ k • A) ∧ (8 • A = 0 → k • A = 0) ∧ (8 • A = 0 → 4 • A ≠ 0 → B ≠ 0)) ∧
    ∃ P A, EDenotes (2 ^ 255 - 19) e P A ∧ 8 • A = 0 ∧ 4 • A ≠ 0 := by
  rw [Inst.c25519_p_eq]
  have hv := edwards25519_valid
  have := hv.curve
  have ho : edwards25519.getOrder = ord25519 := by decide +kernel
  refine ⟨inferInstance, _, inferInstance, edwards25519_eq, ?_, ?_⟩
  · intro prof P A k hP hk
    obtain ⟨B, hB, hi⟩ := C100_edwards_exact_partial _ _ hv prof P A hP k (Or.inl (by rw [ho]; exact clamped_not_dvd hk))
    have h1 : 4 • (edwards25519.getOrder • A) ≠ 0 → B ≠ k • A := by
      intro h4
      rw [Ne, hi, ← integer_iff, ho]
      refine clamped_ne hk ?_ (by rwa [ho] at h4)
      rw [← mul_nsmul']
      have : ord25519 * 8 = Nat.card (eGroup curve25519_p edwards25519) := by
        rw [Inst.card_edwards25519]; decide +kernel
      rw [mul_comm, this]
      exact card_nsmul_eq_zero'
    refine ⟨B, hB, h1, clamped_small hk, fun h8 h4 hB0 => ?_⟩
    refine h1 ?_ (by rw [hB0, clamped_small hk h8])
    rw [ho, eight_order h8, ← mul_nsmul', show 4 * 5 = 4 + 2 * 8 by norm_num, add_nsmul, mul_nsmul', h8, nsmul_zero, add_zero]
    exact h4
  · obtain ⟨B, hB⟩ := Inst.e_order hv 14399317868200118260347934320527232580618823971194345261214217575416788799818
      2707385501144840649318225287225658788936804267575313519463743609750303402022 2 (by decide +kernel) (by decide +kernel)
      (by decide +kernel) (by decide +kernel) (by decide +kernel)
    refine ⟨_, B, ELink.denotes_affine B, ?_, fun h => ?_⟩
    · have := addOrderOf_nsmul_eq_zero B
      rwa [hB] at this
    · have := addOrderOf_dvd_of_nsmul_eq_zero h
      rw [hB] at this
      omega

/-- The obvious test of C99 fails on `CURVE25519`: `T = (0, 0)` is no multiple of the generator, and multiplying it by the order gives the
identity in release builds. The other test tells the two apart. -/
theorem _root_.Redox.Props.C99_curve25519 : (do
    let e ← CURVE25519
    let t ← e.newPoint (← e.f.zero) (← e.f.zero)
    let g ← e.getGenerator
    let n ← e.newScalar (-1)
    return (← (← t.mul .release (← e.newScalar e.getOrder)).eq (← e.identity), ← (← t.mul .debug n).eq (← t.neg),
      ← (← g.mul .debug n).eq (← g.neg))) = R.ok (true, false, true) := by decide +kernel

/-- A clamped secret. -/
example : Clamped (2 ^ 254 + 8 * 12345) ∧ ¬ Clamped (2 ^ 254 + 1) := by
  refine ⟨⟨by norm_num, by norm_num, by norm_num⟩, fun h => ?_⟩
  have := h.2.2
  omega

end Redox.Props.Subgroup
