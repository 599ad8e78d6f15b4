import Verif.Props.FlowProps

/-!
# C83: at which points scalar arithmetic carries over

Scalars are integers modulo the order `r` of the generator. On curves with a cofactor there are points that `r` does not kill.
-/

set_option linter.unusedSectionVars false
set_option maxRecDepth 100000

namespace Redox.Props.Action

open Spec Redox.Inst

section group
variable {G : Type*} [AddCommGroup G] (A : G) {r : ℕ} (hr : 1 ≤ r) (k l : ℤ)
include hr

theorem add_iff : ((k + l) % r) • A = (k % r) • A + (l % r) • A ↔ k % r + l % r < r ∨ r • A = 0 := by
  have hr0 : (0 : ℤ) < r := by exact_mod_cast hr
  have hk0 := Int.emod_nonneg k hr0.ne'
  have hl0 := Int.emod_nonneg l hr0.ne'
  have hk1 := Int.emod_lt_of_pos k hr0
  have hl1 := Int.emod_lt_of_pos l hr0
  rw [← add_zsmul, Int.add_emod]
  by_cases h : k % r + l % r < r
  · rw [Int.emod_eq_of_lt (by omega) h]
    simp [h]
  · have h1 : (k % r + l % r) % r = k % r + l % r - r := by
      rw [← Int.sub_emod_right, Int.emod_eq_of_lt (by omega) (by omega)]
    rw [h1, sub_zsmul, add_eq_left, neg_eq_zero, natCast_zsmul]
    simp [h]

theorem mul_iff : (k * l % r) • A = (k % r) • ((l % r) • A) ↔ ((k % r) * (l % r) / r) • (r • A) = 0 := by
  have h1 : k * l % r = (k % r) * (l % r) - ((k % r) * (l % r) / r) * r := by
    have h2 := Int.ediv_mul_add_emod ((k % r) * (l % r)) r
    rw [Int.mul_emod]
    omega
  rw [h1, sub_zsmul, smul_smul, add_eq_left, neg_eq_zero, mul_smul, natCast_zsmul]

theorem neg_iff : (-k % r) • A = -((k % r) • A) ↔ (r : ℤ) ∣ k ∨ r • A = 0 := by
  have hr0 : (0 : ℤ) < r := by exact_mod_cast hr
  by_cases h : (r : ℤ) ∣ k
  · rw [Int.emod_eq_zero_of_dvd h, Int.emod_eq_zero_of_dvd ((dvd_neg).2 h)]
    simp [h]
  · have hk0 := Int.emod_nonneg k hr0.ne'
    have hk1 := Int.emod_lt_of_pos k hr0
    have hk2 : k % r ≠ 0 := fun h' => h (Int.dvd_of_emod_eq_zero h')
    have h1 : -k % r = r - k % r := by
      rw [← Int.emod_eq_of_lt (show 0 ≤ (r : ℤ) - k % r by omega) (show (r : ℤ) - k % r < r by omega)]
      refine Int.ModEq.symm ?_
      rw [Int.modEq_iff_dvd]
      have h2 := Int.ediv_mul_add_emod k r
      exact ⟨-(k / r) - 1, by linarith⟩
    rw [h1, sub_zsmul, add_eq_right, natCast_zsmul]
    simp [h]

end group

theorem scalar_neg_new {r : ℕ} (hr : 1 ≤ r) (a : ℤ) : Scalar.neg ⟨a % r, r⟩ = R.ok ⟨-a % r, r⟩ := by
  simp only [Scalar.neg, scalar_red_eq r hr]
  rw [R.ok.injEq, Scalar.mk.injEq]
  refine ⟨?_, rfl⟩
  exact (Int.mod_modEq a r).neg

section
variable (p : ℕ) [Fact p.Prime]

/-- C83, Weierstrass: whether `P * (k + l) == P * k + P * l`, `P * (k * l) == (P * l) * k` and `P * (-k) == -(P * k)`, for every point `P` and all
integers `k`, `l`. Nothing panics (release profile, or no scalar involved is zero). -/
theorem _root_.Redox.Props.C83_weierstrass_exact (e : Weierstrass.Curve) (h : WValid p e) (prof : Profile) (P : Weierstrass.Point) (A : (wGroup p e).Point)
    (hP : WDenotes p e P A) (k l : ℤ) :
    ((∀ n ∈ [k, l, k + l], ¬ (e.getOrder : ℤ) ∣ n) ∨ prof = .release → ∃ b, (do
        let s ← (← e.newScalar k).add (← e.newScalar l)
        (← P.mul prof s).eq (← (← P.mul prof (← e.newScalar k)).add (← P.mul prof (← e.newScalar l)))) = R.ok b ∧
      (b = true ↔ k % e.getOrder + l % e.getOrder < e.getOrder ∨ e.getOrder • A = 0)) ∧
    ((∀ n ∈ [k, l], ¬ (e.getOrder : ℤ) ∣ n) ∨ prof = .release → ∃ b, (do
        let s ← (← e.newScalar k).mul (← e.newScalar l)
        (← P.mul prof s).eq (← (← P.mul prof (← e.newScalar l)).mul prof (← e.newScalar k))) = R.ok b ∧
      (b = true ↔ ((k % e.getOrder) * (l % e.getOrder) / e.getOrder) • (e.getOrder • A) = 0)) ∧
    (¬ (e.getOrder : ℤ) ∣ k ∨ prof = .release → ∃ b, (do
        let s ← (← e.newScalar k).neg
        (← P.mul prof s).eq (← (← P.mul prof (← e.newScalar k)).neg)) = R.ok b ∧
      (b = true ↔ (e.getOrder : ℤ) ∣ k ∨ e.getOrder • A = 0)) := by
  have hr1 : 1 ≤ e.r := h.order_prime.one_le
  have hrp : e.r.Prime := h.order_prime
  have hr0 : (0 : ℤ) < e.r := by exact_mod_cast hr1
  simp only [Weierstrass.Curve.getOrder]
  have key : ∀ (Q : Weierstrass.Point) (B : (wGroup p e).Point), WDenotes p e Q B → ∀ n, (¬ (e.r : ℤ) ∣ n ∨ prof = .release) →
      WReturns p e (Q.mul prof ⟨n % e.r, e.r⟩) ((n % e.r) • B) := fun Q B hQ n hn =>
    C25_mul_partial p e h.curve h.complete h.order_bits prof Q B hQ ⟨n % e.r, e.r⟩
      ⟨rfl, Int.emod_nonneg _ hr0.ne', Int.emod_lt_of_pos _ hr0⟩ (hn.imp (fun h h' => h (Int.dvd_of_emod_eq_zero h')) id)
  refine ⟨fun h0 => ?_, fun h0 => ?_, fun h0 => ?_⟩
  · have nz : ∀ n ∈ [k, l, k + l], ¬ (e.r : ℤ) ∣ n ∨ prof = .release := fun n hn => h0.imp (fun h => h n hn) id
    obtain ⟨K, eK, dK⟩ := key P A hP k (nz _ (by simp))
    obtain ⟨L, eL, dL⟩ := key P A hP l (nz _ (by simp))
    obtain ⟨S, eS, dS⟩ := key P A hP (k + l) (nz _ (by simp))
    obtain ⟨U, eU, dU⟩ := (C23_group_law p e h.curve h.complete K L _ _ dK dL).1
    refine ⟨decide (((k + l) % e.r) • A = (k % e.r) • A + (l % e.r) • A), ?_, ?_⟩
    · simp only [Weierstrass.Curve.newScalar, scalar_new_eq e.r hr1, R.ok_bind, Flow.scalar_add_new hr1, eS, eK, eL, eU, C27_eq p e _ _ _ _ dS dU]
    · rw [decide_eq_true_iff, add_iff A hr1]
  · have nz : ∀ n ∈ [k, l], ¬ (e.r : ℤ) ∣ n ∨ prof = .release := fun n hn => h0.imp (fun h => h n hn) id
    obtain ⟨L, eL, dL⟩ := key P A hP l (nz _ (by simp))
    obtain ⟨T, eT, dT⟩ := key L _ dL k (nz _ (by simp))
    obtain ⟨M, eM, dM⟩ := key P A hP (k * l) (h0.imp (fun h => Flow.not_dvd_mul hrp (h k (by simp)) (h l (by simp))) id)
    refine ⟨decide ((k * l % e.r) • A = (k % e.r) • ((l % e.r) • A)), ?_, ?_⟩
    · simp only [Weierstrass.Curve.newScalar, scalar_new_eq e.r hr1, R.ok_bind, Flow.scalar_mul_new hr1, eM, eL, eT, C27_eq p e _ _ _ _ dM dT]
    · rw [decide_eq_true_iff, mul_iff A hr1]
  · obtain ⟨K, eK, dK⟩ := key P A hP k h0
    obtain ⟨N, eN, dN⟩ := key P A hP (-k) (h0.imp (fun h h' => h (Int.dvd_neg.1 h')) id)
    obtain ⟨V, eV, dV⟩ := (C23_group_law p e h.curve h.complete K K _ _ dK dK).2.2
    refine ⟨decide ((-k % e.r) • A = -((k % e.r) • A)), ?_, ?_⟩
    · simp only [Weierstrass.Curve.newScalar, scalar_new_eq e.r hr1, R.ok_bind, scalar_neg_new hr1, eN, eK, eV, C27_eq p e _ _ _ _ dN dV]
    · rw [decide_eq_true_iff, neg_iff A hr1]

/-- C83, Weierstrass: each of the three laws holds for all scalars exactly at the points that the order kills (quantified over `k` and `l` with
no zero scalar involved, so that both profiles are covered). -/
theorem _root_.Redox.Props.C83_weierstrass_laws (e : Weierstrass.Curve) (h : WValid p e) (hr2 : e.getOrder ≠ 2) (prof : Profile) (P : Weierstrass.Point)
    (A : (wGroup p e).Point) (hP : WDenotes p e P A) :
    ((∀ k l : ℤ, (∀ n ∈ [k, l, k + l], ¬ (e.getOrder : ℤ) ∣ n) →
      (do
        let s ← (← e.newScalar k).add (← e.newScalar l)
        (← P.mul prof s).eq (← (← P.mul prof (← e.newScalar k)).add (← P.mul prof (← e.newScalar l)))) = R.ok true) ↔ e.getOrder • A = 0) ∧
    ((∀ k l : ℤ, (∀ n ∈ [k, l], ¬ (e.getOrder : ℤ) ∣ n) →
      (do
        let s ← (← e.newScalar k).mul (← e.newScalar l)
        (← P.mul prof s).eq (← (← P.mul prof (← e.newScalar l)).mul prof (← e.newScalar k))) = R.ok true) ↔ e.getOrder • A = 0) ∧
    ((∀ k : ℤ, ¬ (e.getOrder : ℤ) ∣ k →
      (do
        let s ← (← e.newScalar k).neg
        (← P.mul prof s).eq (← (← P.mul prof (← e.newScalar k)).neg)) = R.ok true) ↔ e.getOrder • A = 0) := by
  obtain ⟨r, hr⟩ : ∃ r, r = e.getOrder := ⟨_, rfl⟩
  have hrp : r.Prime := hr ▸ h.order_prime
  have hr3 : 2 < r := lt_of_le_of_ne hrp.two_le (by rw [hr]; exact hr2.symm)
  have small : ∀ n : ℤ, 0 < n → n < r → ¬ (r : ℤ) ∣ n := fun n h0 h1 hd => by have := Int.le_of_dvd h0 hd; omega
  have odd : r % 2 = 1 := hrp.eq_two_or_odd.resolve_left hr3.ne'
  have ex := C83_weierstrass_exact p e h prof P A hP
  simp only [← hr] at ex ⊢
  refine ⟨⟨fun H => ?_, fun H k l h0 => ?_⟩, ⟨fun H => ?_, fun H k l h0 => ?_⟩, ⟨fun H => ?_, fun H k h0 => ?_⟩⟩
  · have nz : ∀ n ∈ [(r : ℤ) - 1, 2, (r : ℤ) - 1 + 2], ¬ (r : ℤ) ∣ n := by
      simp only [List.forall_mem_cons, List.not_mem_nil, false_imp_iff, implies_true, and_true]
      refine ⟨small _ (by omega) (by omega), small _ (by omega) (by omega), fun hd => ?_⟩
      refine small 1 (by omega) (by omega) ?_
      have := Int.dvd_sub hd (dvd_refl (r : ℤ))
      rwa [show (r : ℤ) - 1 + 2 - r = 1 by ring] at this
    obtain ⟨b, hb, hi⟩ := (ex ((r : ℤ) - 1) 2).1 (Or.inl nz)
    rw [H _ _ nz, R.ok.injEq] at hb
    refine (hi.1 hb.symm).resolve_left ?_
    rw [Int.emod_eq_of_lt (by omega) (by omega), Int.emod_eq_of_lt (by omega) (by omega)]
    omega
  · obtain ⟨b, hb, hi⟩ := (ex k l).1 (Or.inl h0)
    rw [hb, hi.2 (Or.inr H)]
  · have nz : ∀ n ∈ [(2 : ℤ), ((r : ℤ) + 1) / 2], ¬ (r : ℤ) ∣ n := by
      simp only [List.forall_mem_cons, List.not_mem_nil, false_imp_iff, implies_true, and_true]
      exact ⟨small _ (by omega) (by omega), small _ (by omega) (by omega)⟩
    obtain ⟨b, hb, hi⟩ := (ex 2 (((r : ℤ) + 1) / 2)).2.1 (Or.inl nz)
    rw [H _ _ nz, R.ok.injEq] at hb
    have h1 := hi.1 hb.symm
    rw [Int.emod_eq_of_lt (by omega) (by omega), Int.emod_eq_of_lt (by omega) (by omega)] at h1
    have h2 : 2 * (((r : ℤ) + 1) / 2) / r = 1 := by
      rw [show 2 * (((r : ℤ) + 1) / 2) = 1 + r by omega, Int.add_ediv_of_dvd_right (dvd_refl _), Int.ediv_self (by omega),
        Int.ediv_eq_zero_of_lt (by omega) (by omega)]
      rfl
    rwa [h2, one_smul] at h1
  · obtain ⟨b, hb, hi⟩ := (ex k l).2.1 (Or.inl h0)
    rw [hb, hi.2 (by rw [H, zsmul_zero])]
  · have nz : ¬ (r : ℤ) ∣ 1 := small _ (by omega) (by omega)
    obtain ⟨b, hb, hi⟩ := (ex 1 1).2.2 (Or.inl nz)
    rw [H _ nz, R.ok.injEq] at hb
    exact (hi.1 hb.symm).resolve_left nz
  · obtain ⟨b, hb, hi⟩ := (ex k k).2.2 (Or.inl h0)
    rw [hb, hi.2 (Or.inr H)]

/-- C83, Montgomery: whether `P * (k + l) == P * k + P * l`, `P * (k * l) == (P * l) * k` and `P * (-k) == -(P * k)`, for every point `P` and all
integers `k`, `l`. Nothing panics (release profile, or no scalar involved is zero). -/
theorem _root_.Redox.Props.C83_montgomery_exact (e : Montgomery.Curve) (h : MValid p e) (prof : Profile) (P : Montgomery.Point) (A : (mGroup p e).Point)
    (hP : MDenotes p e P A) (k l : ℤ) :
    ((∀ n ∈ [k, l, k + l], ¬ (e.getOrder : ℤ) ∣ n) ∨ prof = .release → ∃ b, (do
        let s ← (← e.newScalar k).add (← e.newScalar l)
        (← P.mul prof s).eq (← (← P.mul prof (← e.newScalar k)).add (← P.mul prof (← e.newScalar l)))) = R.ok b ∧
      (b = true ↔ k % e.getOrder + l % e.getOrder < e.getOrder ∨ e.getOrder • A = 0)) ∧
    ((∀ n ∈ [k, l], ¬ (e.getOrder : ℤ) ∣ n) ∨ prof = .release → ∃ b, (do
        let s ← (← e.newScalar k).mul (← e.newScalar l)
        (← P.mul prof s).eq (← (← P.mul prof (← e.newScalar l)).mul prof (← e.newScalar k))) = R.ok b ∧
      (b = true ↔ ((k % e.getOrder) * (l % e.getOrder) / e.getOrder) • (e.getOrder • A) = 0)) ∧
    (¬ (e.getOrder : ℤ) ∣ k ∨ prof = .release → ∃ b, (do
        let s ← (← e.newScalar k).neg
        (← P.mul prof s).eq (← (← P.mul prof (← e.newScalar k)).neg)) = R.ok b ∧
      (b = true ↔ (e.getOrder : ℤ) ∣ k ∨ e.getOrder • A = 0)) := by
  have hr1 : 1 ≤ e.r := h.order_prime.one_le
  have hrp : e.r.Prime := h.order_prime
  have hr0 : (0 : ℤ) < e.r := by exact_mod_cast hr1
  simp only [Montgomery.Curve.getOrder]
  have key : ∀ (Q : Montgomery.Point) (B : (mGroup p e).Point), MDenotes p e Q B → ∀ n, (¬ (e.r : ℤ) ∣ n ∨ prof = .release) →
      MReturns p e (Q.mul prof ⟨n % e.r, e.r⟩) ((n % e.r) • B) := fun Q B hQ n hn =>
    C33_mul_partial p e h.curve h.b_one h.complete h.order_bits prof Q B hQ ⟨n % e.r, e.r⟩
      ⟨rfl, Int.emod_nonneg _ hr0.ne', Int.emod_lt_of_pos _ hr0⟩ (hn.imp (fun h h' => h (Int.dvd_of_emod_eq_zero h')) id)
  refine ⟨fun h0 => ?_, fun h0 => ?_, fun h0 => ?_⟩
  · have nz : ∀ n ∈ [k, l, k + l], ¬ (e.r : ℤ) ∣ n ∨ prof = .release := fun n hn => h0.imp (fun h => h n hn) id
    obtain ⟨K, eK, dK⟩ := key P A hP k (nz _ (by simp))
    obtain ⟨L, eL, dL⟩ := key P A hP l (nz _ (by simp))
    obtain ⟨S, eS, dS⟩ := key P A hP (k + l) (nz _ (by simp))
    obtain ⟨U, eU, dU⟩ := (C32_group_law_partial p e h.curve h.b_one h.complete K L _ _ dK dL).1
    refine ⟨decide (((k + l) % e.r) • A = (k % e.r) • A + (l % e.r) • A), ?_, ?_⟩
    · simp only [Montgomery.Curve.newScalar, scalar_new_eq e.r hr1, R.ok_bind, Flow.scalar_add_new hr1, eS, eK, eL, eU, Mo.eq_of_denotes _ _ _ _ dS dU]
    · rw [decide_eq_true_iff, add_iff A hr1]
  · have nz : ∀ n ∈ [k, l], ¬ (e.r : ℤ) ∣ n ∨ prof = .release := fun n hn => h0.imp (fun h => h n hn) id
    obtain ⟨L, eL, dL⟩ := key P A hP l (nz _ (by simp))
    obtain ⟨T, eT, dT⟩ := key L _ dL k (nz _ (by simp))
    obtain ⟨M, eM, dM⟩ := key P A hP (k * l) (h0.imp (fun h => Flow.not_dvd_mul hrp (h k (by simp)) (h l (by simp))) id)
    refine ⟨decide ((k * l % e.r) • A = (k % e.r) • ((l % e.r) • A)), ?_, ?_⟩
    · simp only [Montgomery.Curve.newScalar, scalar_new_eq e.r hr1, R.ok_bind, Flow.scalar_mul_new hr1, eM, eL, eT, Mo.eq_of_denotes _ _ _ _ dM dT]
    · rw [decide_eq_true_iff, mul_iff A hr1]
  · obtain ⟨K, eK, dK⟩ := key P A hP k h0
    obtain ⟨N, eN, dN⟩ := key P A hP (-k) (h0.imp (fun h h' => h (Int.dvd_neg.1 h')) id)
    obtain ⟨V, eV, dV⟩ := (C32_group_law_partial p e h.curve h.b_one h.complete K K _ _ dK dK).2.2
    refine ⟨decide ((-k % e.r) • A = -((k % e.r) • A)), ?_, ?_⟩
    · simp only [Montgomery.Curve.newScalar, scalar_new_eq e.r hr1, R.ok_bind, scalar_neg_new hr1, eN, eK, eV, Mo.eq_of_denotes _ _ _ _ dN dV]
    · rw [decide_eq_true_iff, neg_iff A hr1]

/-- C83, Montgomery: each of the three laws holds for all scalars exactly at the points that the order kills (quantified over `k` and `l` with
no zero scalar involved, so that both profiles are covered). -/
theorem _root_.Redox.Props.C83_montgomery_laws (e : Montgomery.Curve) (h : MValid p e) (hr2 : e.getOrder ≠ 2) (prof : Profile) (P : Montgomery.Point)
    (A : (mGroup p e).Point) (hP : MDenotes p e P A) :
    ((∀ k l : ℤ, (∀ n ∈ [k, l, k + l], ¬ (e.getOrder : ℤ) ∣ n) →
      (do
        let s ← (← e.newScalar k).add (← e.newScalar l)
        (← P.mul prof s).eq (← (← P.mul prof (← e.newScalar k)).add (← P.mul prof (← e.newScalar l)))) = R.ok true) ↔ e.getOrder • A = 0) ∧
    ((∀ k l : ℤ, (∀ n ∈ [k, l], ¬ (e.getOrder : ℤ) ∣ n) →
      (do
        let s ← (← e.newScalar k).mul (← e.newScalar l)
        (← P.mul prof s).eq (← (← P.mul prof (← e.newScalar l)).mul prof (← e.newScalar k))) = R.ok true) ↔ e.getOrder • A = 0) ∧
    ((∀ k : ℤ, ¬ (e.getOrder : ℤ) ∣ k →
      (do
        let s ← (← e.newScalar k).neg
        (← P.mul prof s).eq (← (← P.mul prof (← e.newScalar k)).neg)) = R.ok true) ↔ e.getOrder • A = 0) := by
  obtain ⟨r, hr⟩ : ∃ r, r = e.getOrder := ⟨_, rfl⟩
  have hrp : r.Prime := hr ▸ h.order_prime
  have hr3 : 2 < r := lt_of_le_of_ne hrp.two_le (by rw [hr]; exact hr2.symm)
  have small : ∀ n : ℤ, 0 < n → n < r → ¬ (r : ℤ) ∣ n := fun n h0 h1 hd => by have := Int.le_of_dvd h0 hd; omega
  have odd : r % 2 = 1 := hrp.eq_two_or_odd.resolve_left hr3.ne'
  have ex := C83_montgomery_exact p e h prof P A hP
  simp only [← hr] at ex ⊢
  refine ⟨⟨fun H => ?_, fun H k l h0 => ?_⟩, ⟨fun H => ?_, fun H k l h0 => ?_⟩, ⟨fun H => ?_, fun H k h0 => ?_⟩⟩
  · have nz : ∀ n ∈ [(r : ℤ) - 1, 2, (r : ℤ) - 1 + 2], ¬ (r : ℤ) ∣ n := by
      simp only [List.forall_mem_cons, List.not_mem_nil, false_imp_iff, implies_true, and_true]
      refine ⟨small _ (by omega) (by omega), small _ (by omega) (by omega), fun hd => ?_⟩
      refine small 1 (by omega) (by omega) ?_
      have := Int.dvd_sub hd (dvd_refl (r : ℤ))
      rwa [show (r : ℤ) - 1 + 2 - r = 1 by ring] at this
    obtain ⟨b, hb, hi⟩ := (ex ((r : ℤ) - 1) 2).1 (Or.inl nz)
    rw [H _ _ nz, R.ok.injEq] at hb
    refine (hi.1 hb.symm).resolve_left ?_
    rw [Int.emod_eq_of_lt (by omega) (by omega), Int.emod_eq_of_lt (by omega) (by omega)]
    omega
  · obtain ⟨b, hb, hi⟩ := (ex k l).1 (Or.inl h0)
    rw [hb, hi.2 (Or.inr H)]
  · have nz : ∀ n ∈ [(2 : ℤ), ((r : ℤ) + 1) / 2], ¬ (r : ℤ) ∣ n := by
      simp only [List.forall_mem_cons, List.not_mem_nil, false_imp_iff, implies_true, and_true]
      exact ⟨small _ (by omega) (by omega), small _ (by omega) (by omega)⟩
    obtain ⟨b, hb, hi⟩ := (ex 2 (((r : ℤ) + 1) / 2)).2.1 (Or.inl nz)
    rw [H _ _ nz, R.ok.injEq] at hb
    have h1 := hi.1 hb.symm
    rw [Int.emod_eq_of_lt (by omega) (by omega), Int.emod_eq_of_lt (by omega) (by omega)] at h1
    have h2 : 2 * (((r : ℤ) + 1) / 2) / r = 1 := by
      rw [show 2 * (((r : ℤ) + 1) / 2) = 1 + r by omega, Int.add_ediv_of_dvd_right (dvd_refl _), Int.ediv_self (by omega),
        Int.ediv_eq_zero_of_lt (by omega) (by omega)]
      rfl
    rwa [h2, one_smul] at h1
  · obtain ⟨b, hb, hi⟩ := (ex k l).2.1 (Or.inl h0)
    rw [hb, hi.2 (by rw [H, zsmul_zero])]
  · have nz : ¬ (r : ℤ) ∣ 1 := small _ (by omega) (by omega)
    obtain ⟨b, hb, hi⟩ := (ex 1 1).2.2 (Or.inl nz)
    rw [H _ nz, R.ok.injEq] at hb
    exact (hi.1 hb.symm).resolve_left nz
  · obtain ⟨b, hb, hi⟩ := (ex k k).2.2 (Or.inl h0)
    rw [hb, hi.2 (Or.inr H)]

/-- C83, Edwards: whether `P * (k + l) == P * k + P * l`, `P * (k * l) == (P * l) * k` and `P * (-k) == -(P * k)`, for every point `P` and all
integers `k`, `l`. Nothing panics (release profile, or no scalar involved is zero). -/
theorem _root_.Redox.Props.C83_edwards_exact (e : Edwards.Curve) (h : EValid p e) [ECurve p e] (prof : Profile) (P : Edwards.Point) (A : eGroup p e)
    (hP : EDenotes p e P A) (k l : ℤ) :
    ((∀ n ∈ [k, l, k + l], ¬ (e.getOrder : ℤ) ∣ n) ∨ prof = .release → ∃ b, (do
        let s ← (← e.newScalar k).add (← e.newScalar l)
        (← P.mul prof s).eq (← (← P.mul prof (← e.newScalar k)).add (← P.mul prof (← e.newScalar l)))) = R.ok b ∧
      (b = true ↔ k % e.getOrder + l % e.getOrder < e.getOrder ∨ e.getOrder • A = 0)) ∧
    ((∀ n ∈ [k, l], ¬ (e.getOrder : ℤ) ∣ n) ∨ prof = .release → ∃ b, (do
        let s ← (← e.newScalar k).mul (← e.newScalar l)
        (← P.mul prof s).eq (← (← P.mul prof (← e.newScalar l)).mul prof (← e.newScalar k))) = R.ok b ∧
      (b = true ↔ ((k % e.getOrder) * (l % e.getOrder) / e.getOrder) • (e.getOrder • A) = 0)) ∧
    (¬ (e.getOrder : ℤ) ∣ k ∨ prof = .release → ∃ b, (do
        let s ← (← e.newScalar k).neg
        (← P.mul prof s).eq (← (← P.mul prof (← e.newScalar k)).neg)) = R.ok b ∧
      (b = true ↔ (e.getOrder : ℤ) ∣ k ∨ e.getOrder • A = 0)) := by
  have hr1 : 1 ≤ e.r := h.order_prime.one_le
  have hrp : e.r.Prime := h.order_prime
  have hr0 : (0 : ℤ) < e.r := by exact_mod_cast hr1
  simp only [Edwards.Curve.getOrder]
  have key : ∀ (Q : Edwards.Point) (B : eGroup p e), EDenotes p e Q B → ∀ n, (¬ (e.r : ℤ) ∣ n ∨ prof = .release) →
      EReturns p e (Q.mul prof ⟨n % e.r, e.r⟩) ((n % e.r) • B) := fun Q B hQ n hn =>
    C37_mul_partial p e h.order_bits prof Q B hQ ⟨n % e.r, e.r⟩
      ⟨rfl, Int.emod_nonneg _ hr0.ne', Int.emod_lt_of_pos _ hr0⟩ (hn.imp (fun h h' => h (Int.dvd_of_emod_eq_zero h')) id)
  refine ⟨fun h0 => ?_, fun h0 => ?_, fun h0 => ?_⟩
  · have nz : ∀ n ∈ [k, l, k + l], ¬ (e.r : ℤ) ∣ n ∨ prof = .release := fun n hn => h0.imp (fun h => h n hn) id
    obtain ⟨K, eK, dK⟩ := key P A hP k (nz _ (by simp))
    obtain ⟨L, eL, dL⟩ := key P A hP l (nz _ (by simp))
    obtain ⟨S, eS, dS⟩ := key P A hP (k + l) (nz _ (by simp))
    obtain ⟨U, eU, dU⟩ := (C36_group_law p e K L _ _ dK dL).1
    refine ⟨decide (((k + l) % e.r) • A = (k % e.r) • A + (l % e.r) • A), ?_, ?_⟩
    · simp only [Edwards.Curve.newScalar, scalar_new_eq e.r hr1, R.ok_bind, Flow.scalar_add_new hr1, eS, eK, eL, eU, ELink.eq_of_denotes _ _ _ _ dS dU]
    · rw [decide_eq_true_iff, add_iff A hr1]
  · have nz : ∀ n ∈ [k, l], ¬ (e.r : ℤ) ∣ n ∨ prof = .release := fun n hn => h0.imp (fun h => h n hn) id
    obtain ⟨L, eL, dL⟩ := key P A hP l (nz _ (by simp))
    obtain ⟨T, eT, dT⟩ := key L _ dL k (nz _ (by simp))
    obtain ⟨M, eM, dM⟩ := key P A hP (k * l) (h0.imp (fun h => Flow.not_dvd_mul hrp (h k (by simp)) (h l (by simp))) id)
    refine ⟨decide ((k * l % e.r) • A = (k % e.r) • ((l % e.r) • A)), ?_, ?_⟩
    · simp only [Edwards.Curve.newScalar, scalar_new_eq e.r hr1, R.ok_bind, Flow.scalar_mul_new hr1, eM, eL, eT, ELink.eq_of_denotes _ _ _ _ dM dT]
    · rw [decide_eq_true_iff, mul_iff A hr1]
  · obtain ⟨K, eK, dK⟩ := key P A hP k h0
    obtain ⟨N, eN, dN⟩ := key P A hP (-k) (h0.imp (fun h h' => h (Int.dvd_neg.1 h')) id)
    obtain ⟨V, eV, dV⟩ := (C36_group_law p e K K _ _ dK dK).2.2.1
    refine ⟨decide ((-k % e.r) • A = -((k % e.r) • A)), ?_, ?_⟩
    · simp only [Edwards.Curve.newScalar, scalar_new_eq e.r hr1, R.ok_bind, scalar_neg_new hr1, eN, eK, eV, ELink.eq_of_denotes _ _ _ _ dN dV]
    · rw [decide_eq_true_iff, neg_iff A hr1]

/-- C83, Edwards: each of the three laws holds for all scalars exactly at the points that the order kills (quantified over `k` and `l` with
no zero scalar involved, so that both profiles are covered). -/
theorem _root_.Redox.Props.C83_edwards_laws (e : Edwards.Curve) (h : EValid p e) [ECurve p e] (hr2 : e.getOrder ≠ 2) (prof : Profile) (P : Edwards.Point)
    (A : eGroup p e) (hP : EDenotes p e P A) :
    ((∀ k l : ℤ, (∀ n ∈ [k, l, k + l], ¬ (e.getOrder : ℤ) ∣ n) →
      (do
        let s ← (← e.newScalar k).add (← e.newScalar l)
        (← P.mul prof s).eq (← (← P.mul prof (← e.newScalar k)).add (← P.mul prof (← e.newScalar l)))) = R.ok true) ↔ e.getOrder • A = 0) ∧
    ((∀ k l : ℤ, (∀ n ∈ [k, l], ¬ (e.getOrder : ℤ) ∣ n) →
      (do
        let s ← (← e.newScalar k).mul (← e.newScalar l)
        (← P.mul prof s).eq (← (← P.mul prof (← e.newScalar l)).mul prof (← e.newScalar k))) = R.ok true) ↔ e.getOrder • A = 0) ∧
    ((∀ k : ℤ, ¬ (e.getOrder : ℤ) ∣ k →
      (do
        let s ← (← e.newScalar k).neg
        (← P.mul prof s).eq (← (← P.mul prof (← e.newScalar k)).neg)) = R.ok true) ↔ e.getOrder • A = 0) := by
  obtain ⟨r, hr⟩ : ∃ r, r = e.getOrder := ⟨_, rfl⟩
  have hrp : r.Prime := hr ▸ h.order_prime
  have hr3 : 2 < r := lt_of_le_of_ne hrp.two_le (by rw [hr]; exact hr2.symm)
  have small : ∀ n : ℤ, 0 < n → n < r → ¬ (r : ℤ) ∣ n := fun n h0 h1 hd => by have := Int.le_of_dvd h0 hd; omega
  have odd : r % 2 = 1 := hrp.eq_two_or_odd.resolve_left hr3.ne'
  have ex := C83_edwards_exact p e h prof P A hP
  simp only [← hr] at ex ⊢
  refine ⟨⟨fun H => ?_, fun H k l h0 => ?_⟩, ⟨fun H => ?_, fun H k l h0 => ?_⟩, ⟨fun H => ?_, fun H k h0 => ?_⟩⟩
  · have nz : ∀ n ∈ [(r : ℤ) - 1, 2, (r : ℤ) - 1 + 2], ¬ (r : ℤ) ∣ n := by
      simp only [List.forall_mem_cons, List.not_mem_nil, false_imp_iff, implies_true, and_true]
      refine ⟨small _ (by omega) (by omega), small _ (by omega) (by omega), fun hd => ?_⟩
      refine small 1 (by omega) (by omega) ?_
      have := Int.dvd_sub hd (dvd_refl (r : ℤ))
      rwa [show (r : ℤ) - 1 + 2 - r = 1 by ring] at this
    obtain ⟨b, hb, hi⟩ := (ex ((r : ℤ) - 1) 2).1 (Or.inl nz)
    rw [H _ _ nz, R.ok.injEq] at hb
    refine (hi.1 hb.symm).resolve_left ?_
    rw [Int.emod_eq_of_lt (by omega) (by omega), Int.emod_eq_of_lt (by omega) (by omega)]
    omega
  · obtain ⟨b, hb, hi⟩ := (ex k l).1 (Or.inl h0)
    rw [hb, hi.2 (Or.inr H)]
  · have nz : ∀ n ∈ [(2 : ℤ), ((r : ℤ) + 1) / 2], ¬ (r : ℤ) ∣ n := by
      simp only [List.forall_mem_cons, List.not_mem_nil, false_imp_iff, implies_true, and_true]
      exact ⟨small _ (by omega) (by omega), small _ (by omega) (by omega)⟩
    obtain ⟨b, hb, hi⟩ := (ex 2 (((r : ℤ) + 1) / 2)).2.1 (Or.inl nz)
    rw [H _ _ nz, R.ok.injEq] at hb
    have h1 := hi.1 hb.symm
    rw [Int.emod_eq_of_lt (by omega) (by omega), Int.emod_eq_of_lt (by omega) (by omega)] at h1
    have h2 : 2 * (((r : ℤ) + 1) / 2) / r = 1 := by
      rw [show 2 * (((r : ℤ) + 1) / 2) = 1 + r by omega, Int.add_ediv_of_dvd_right (dvd_refl _), Int.ediv_self (by omega),
        Int.ediv_eq_zero_of_lt (by omega) (by omega)]
      rfl
    rwa [h2, one_smul] at h1
  · obtain ⟨b, hb, hi⟩ := (ex k l).2.1 (Or.inl h0)
    rw [hb, hi.2 (by rw [H, zsmul_zero])]
  · have nz : ¬ (r : ℤ) ∣ 1 := small _ (by omega) (by omega)
    obtain ⟨b, hb, hi⟩ := (ex 1 1).2.2 (Or.inl nz)
    rw [H _ nz, R.ok.injEq] at hb
    exact (hi.1 hb.symm).resolve_left nz
  · obtain ⟨b, hb, hi⟩ := (ex k k).2.2 (Or.inl h0)
    rw [hb, hi.2 (Or.inr H)]

end

/-! ## The named curves -/

/-- C83, P-256, P-384, P-521, secp256k1 and its 3-isogenous curve: the three laws hold at every point and for all scalars (in the release
profile, or when no scalar involved is zero). -/
theorem _root_.Redox.Props.C83_named_prime : ∀ t ∈ Inst.primeOrderList, ∃ (_ : Fact t.2.Prime) (e : Weierstrass.Curve), t.1 = R.ok e ∧
    ∀ (prof : Profile) (P : Weierstrass.Point) (A : (wGroup t.2 e).Point), WDenotes t.2 e P A → ∀ k l : ℤ,
      (∀ n ∈ [k, l, k + l], ¬ (e.getOrder : ℤ) ∣ n) ∨ prof = .release →
      (do let s ← (← e.newScalar k).add (← e.newScalar l)
          (← P.mul prof s).eq (← (← P.mul prof (← e.newScalar k)).add (← P.mul prof (← e.newScalar l)))) = R.ok true ∧
      (do let s ← (← e.newScalar k).mul (← e.newScalar l)
          (← P.mul prof s).eq (← (← P.mul prof (← e.newScalar l)).mul prof (← e.newScalar k))) = R.ok true ∧
      (do let s ← (← e.newScalar k).neg
          (← P.mul prof s).eq (← (← P.mul prof (← e.newScalar k)).neg)) = R.ok true := by
  have key : ∀ (c : R Weierstrass.Curve) (p : ℕ) [Fact p.Prime] (e : Weierstrass.Curve), c = R.ok e → WValid p e →
      2 * p + 1 < 3 * e.r → ∃ (_ : Fact p.Prime) (e : Weierstrass.Curve), c = R.ok e ∧
    ∀ (prof : Profile) (P : Weierstrass.Point) (A : (wGroup p e).Point), WDenotes p e P A → ∀ k l : ℤ,
      (∀ n ∈ [k, l, k + l], ¬ (e.getOrder : ℤ) ∣ n) ∨ prof = .release →
      (do let s ← (← e.newScalar k).add (← e.newScalar l)
          (← P.mul prof s).eq (← (← P.mul prof (← e.newScalar k)).add (← P.mul prof (← e.newScalar l)))) = R.ok true ∧
      (do let s ← (← e.newScalar k).mul (← e.newScalar l)
          (← P.mul prof s).eq (← (← P.mul prof (← e.newScalar l)).mul prof (← e.newScalar k))) = R.ok true ∧
      (do let s ← (← e.newScalar k).neg
          (← P.mul prof s).eq (← (← P.mul prof (← e.newScalar k)).neg)) = R.ok true := by
    intro c p _ e hc hv hb
    refine ⟨inferInstance, e, hc, fun prof P A hP k l h0 => ?_⟩
    have hcard := Inst.card_of_valid hv hb
    have hA : e.getOrder • A = 0 := by
      rw [Weierstrass.Curve.getOrder, ← hcard]
      exact card_nsmul_eq_zero'
    obtain ⟨x1, x2, x3⟩ := C83_weierstrass_exact p e hv prof P A hP k l
    obtain ⟨b1, e1, i1⟩ := x1 h0
    obtain ⟨b2, e2, i2⟩ := x2 (h0.imp (fun h n hn => h n (List.mem_of_mem_take (i := 2) hn)) id)
    obtain ⟨b3, e3, i3⟩ := x3 (h0.imp (fun h => h k (by simp)) id)
    rw [e1, e2, e3, i1.2 (Or.inr hA), i2.2 (by rw [hA, zsmul_zero]), i3.2 (Or.inr hA)]
    exact ⟨rfl, rfl, rfl⟩
  rw [Inst.primeOrderList, Inst.weierstrassList, Inst.p256_p_eq, Inst.p384_p_eq, Inst.p521_p_eq, Inst.secp256k1_p_eq, Inst.bls_p_eq]
  intro t ht
  simp only [List.take, List.mem_cons, List.not_mem_nil, or_false] at ht
  rcases ht with rfl | rfl | rfl | rfl | rfl
  · exact key _ _ _ p256_eq p256_valid (by decide +kernel)
  · exact key _ _ _ p384_eq p384_valid (by decide +kernel)
  · exact key _ _ _ p521_eq p521_valid (by decide +kernel)
  · exact key _ _ _ secp256k1_eq secp256k1_valid (by decide +kernel)
  · exact key _ _ _ secp256k1_3iso_eq secp256k1_3iso_valid (by decide +kernel)

theorem two_kill {G : Type*} [AddCommGroup G] {A : G} (h2 : A + A = 0) (h0 : A ≠ 0) (n : ℤ) : n • A = 0 ↔ 2 ∣ n := by
  have ho : addOrderOf A = 2 := addOrderOf_eq_prime (by rw [two_nsmul, h2]) h0
  rw [← addOrderOf_dvd_iff_zsmul_eq_zero, ho]
  rfl

section
variable (p : ℕ) [Fact p.Prime]

/-- C83, Montgomery: at the point `(0, 0)` of order two, on every curve of the family, the three laws fail whenever the remainders of `k` and
`l` overflow the order (an odd number of times, for the product), and always for the negation of a nonzero scalar. -/
theorem _root_.Redox.Props.C83_montgomery_order_two (e : Montgomery.Curve) (h : MValid p e) (hr2 : e.getOrder ≠ 2) :
    ∃ P, (do e.newPoint (← e.f.zero) (← e.f.zero)) = R.ok P ∧ ∀ (prof : Profile) (k l : ℤ),
      (∀ n ∈ [k, l, k + l], ¬ (e.getOrder : ℤ) ∣ n) ∨ prof = .release →
        (do let s ← (← e.newScalar k).add (← e.newScalar l)
            (← P.mul prof s).eq (← (← P.mul prof (← e.newScalar k)).add (← P.mul prof (← e.newScalar l)))) =
          R.ok (decide (k % e.getOrder + l % e.getOrder < e.getOrder)) ∧
        (do let s ← (← e.newScalar k).mul (← e.newScalar l)
            (← P.mul prof s).eq (← (← P.mul prof (← e.newScalar l)).mul prof (← e.newScalar k))) =
          R.ok (decide (2 ∣ (k % e.getOrder) * (l % e.getOrder) / e.getOrder)) ∧
        (do let s ← (← e.newScalar k).neg
            (← P.mul prof s).eq (← (← P.mul prof (← e.newScalar k)).neg)) = R.ok (decide ((e.getOrder : ℤ) ∣ k)) := by
  have he := h.curve
  have hns : (mGroup p e).Nonsingular 0 0 := by
    rw [WeierstrassCurve.Affine.nonsingular_iff, WeierstrassCurve.Affine.equation_iff]
    simp
  let A : (mGroup p e).Point := .some 0 0 hns
  have hA0 : A ≠ 0 := WeierstrassCurve.Affine.Point.some_ne_zero hns
  have hA2 : A + A = 0 := by
    refine WeierstrassCurve.Affine.Point.add_of_Y_eq rfl ?_
    simp [WeierstrassCurve.Affine.negY]
  have hnew : (do e.newPoint (← e.f.zero) (← e.f.zero)) = R.ok (MLink.pt e (0 : ZMod p) 0 1) := by
    simp only [he.field, zero_eq, R.ok_bind]
    rw [MLink.newPoint_pt he, if_pos (by ring)]
  have hd : MDenotes p e (MLink.pt e (0 : ZMod p) 0 1) A :=
    MLink.denotes_iff.2 ⟨_, _, _, rfl, one_ne_zero, by ring, by ring⟩
  have hodd : e.getOrder % 2 = 1 := (h.order_prime.eq_two_or_odd).resolve_left hr2
  have hrA : e.getOrder • A = A := by
    rw [← Nat.div_add_mod e.getOrder 2, hodd, add_nsmul, one_nsmul, mul_comm, mul_nsmul', two_nsmul, hA2, nsmul_zero, zero_add]
  refine ⟨_, hnew, fun prof k l h0 => ?_⟩
  obtain ⟨x1, x2, x3⟩ := C83_montgomery_exact p e h prof _ A hd k l
  obtain ⟨b1, e1, i1⟩ := x1 h0
  obtain ⟨b2, e2, i2⟩ := x2 (h0.imp (fun h n hn => h n (List.mem_of_mem_take (i := 2) hn)) id)
  obtain ⟨b3, e3, i3⟩ := x3 (h0.imp (fun h => h k (by simp)) id)
  rw [hrA] at i1 i2 i3
  rw [e1, e2, e3]
  refine ⟨?_, ?_, ?_⟩
  · rw [R.ok.injEq, Bool.eq_iff_iff, i1, decide_eq_true_iff, or_iff_left hA0]
  · rw [R.ok.injEq, Bool.eq_iff_iff, i2, decide_eq_true_iff, two_kill hA2 hA0]
  · rw [R.ok.injEq, Bool.eq_iff_iff, i3, decide_eq_true_iff, or_iff_left hA0]

/-- C83, Edwards: at the point `(0, -1)` of order two, on every curve of the family, the three laws fail whenever the remainders of `k` and
`l` overflow the order (an odd number of times, for the product), and always for the negation of a nonzero scalar. -/
theorem _root_.Redox.Props.C83_edwards_order_two (e : Edwards.Curve) (h : EValid p e) [ECurve p e] (hr2 : e.getOrder ≠ 2) :
    ∃ P, (do e.newPoint (← e.f.zero) (← e.f.elt (-1))) = R.ok P ∧ ∀ (prof : Profile) (k l : ℤ),
      (∀ n ∈ [k, l, k + l], ¬ (e.getOrder : ℤ) ∣ n) ∨ prof = .release →
        (do let s ← (← e.newScalar k).add (← e.newScalar l)
            (← P.mul prof s).eq (← (← P.mul prof (← e.newScalar k)).add (← P.mul prof (← e.newScalar l)))) =
          R.ok (decide (k % e.getOrder + l % e.getOrder < e.getOrder)) ∧
        (do let s ← (← e.newScalar k).mul (← e.newScalar l)
            (← P.mul prof s).eq (← (← P.mul prof (← e.newScalar l)).mul prof (← e.newScalar k))) =
          R.ok (decide (2 ∣ (k % e.getOrder) * (l % e.getOrder) / e.getOrder)) ∧
        (do let s ← (← e.newScalar k).neg
            (← P.mul prof s).eq (← (← P.mul prof (← e.newScalar k)).neg)) = R.ok (decide ((e.getOrder : ℤ) ∣ k)) := by
  have he := h.curve.params
  let A : eGroup p e := ⟨0, -1, by ring⟩
  have hy1 : A.y ≠ 1 := by
    intro h1
    have h2 : (2 : ZMod p) = 0 := by
      have h3 : (-1 : ZMod p) = 1 := h1
      linear_combination -h3
    have hp2 : p ∣ 2 := (ZMod.natCast_eq_zero_iff 2 p).1 (by exact_mod_cast h2)
    have := (Nat.prime_dvd_prime_iff_eq Fact.out Nat.prime_two).1 hp2
    exact he.odd this
  have hA0 : A ≠ 0 := fun h0 => hy1 (by rw [h0]; rfl)
  have hA2 : A + A = 0 := by
    obtain ⟨g1, g2, -⟩ := eGroup_law p e A A
    ext
    · rw [g1]; simp only [A, zero_mul, mul_zero, add_zero, zero_div]; rfl
    · rw [g2]; simp only [A, mul_zero, sub_zero, mul_neg, mul_one, neg_neg, div_one]; rfl
  have hnew : (do e.newPoint (← e.f.zero) (← e.f.elt (-1))) = R.ok (ELink.pt e (0 : ZMod p) (-1) (0 * -1) 1) := by
    simp only [he.field, zero_eq, elt_eq, R.ok_bind]
    rw [Int.cast_neg, Int.cast_one, ELink.newPoint_pt he, if_pos (by ring)]
  have hd : EDenotes p e (ELink.pt e (0 : ZMod p) (-1) (0 * -1) 1) A := ELink.denotes_affine A
  have hodd : e.getOrder % 2 = 1 := (h.order_prime.eq_two_or_odd).resolve_left hr2
  have hrA : e.getOrder • A = A := by
    rw [← Nat.div_add_mod e.getOrder 2, hodd, add_nsmul, one_nsmul, mul_comm, mul_nsmul', two_nsmul, hA2, nsmul_zero, zero_add]
  refine ⟨_, hnew, fun prof k l h0 => ?_⟩
  obtain ⟨x1, x2, x3⟩ := C83_edwards_exact p e h prof _ A hd k l
  obtain ⟨b1, e1, i1⟩ := x1 h0
  obtain ⟨b2, e2, i2⟩ := x2 (h0.imp (fun h n hn => h n (List.mem_of_mem_take (i := 2) hn)) id)
  obtain ⟨b3, e3, i3⟩ := x3 (h0.imp (fun h => h k (by simp)) id)
  rw [hrA] at i1 i2 i3
  rw [e1, e2, e3]
  refine ⟨?_, ?_, ?_⟩
  · rw [R.ok.injEq, Bool.eq_iff_iff, i1, decide_eq_true_iff, or_iff_left hA0]
  · rw [R.ok.injEq, Bool.eq_iff_iff, i2, decide_eq_true_iff, two_kill hA2 hA0]
  · rw [R.ok.injEq, Bool.eq_iff_iff, i3, decide_eq_true_iff, or_iff_left hA0]

end

/-- The hypotheses of the theorems are met: valid curves of each family with orders other than two. -/
example : WValid p256_p p256 ∧ p256.getOrder ≠ 2 ∧ MValid curve25519_p curve25519 ∧ curve25519.getOrder ≠ 2 ∧
    EValid curve25519_p edwards25519 ∧ edwards25519.getOrder ≠ 2 := by
  refine ⟨p256_valid, by decide +kernel, curve25519_valid, by decide +kernel, edwards25519_valid, by decide +kernel⟩

end Redox.Props.Action
