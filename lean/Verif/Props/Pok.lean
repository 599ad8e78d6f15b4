import Verif.Props.Ecdsa

/-!
# C118: proving knowledge of a discrete logarithm

The prover sends a commitment `K`, receives a challenge `c` and answers `s`; the verifier checks `P * s == K + Q * c`. The programs below are what a user of the
library writes.
-/

set_option linter.unusedSectionVars false

namespace Redox.Props.Pok

open Spec Redox.Inst Redox.Props.Flow Redox.Props.Threshold Redox.Props.Commit Redox.Props.Ecdsa

/-- The quotient of the differences of two responses and of two challenges. -/
def extract (mk : ℤ → R Scalar) (c s c' s' : ℤ) : R Scalar := do
  (← (← mk s).sub (← mk s')).div (← (← mk c).sub (← mk c'))

theorem extract_eq {r : ℕ} (hr : r.Prime) (h2 : r ≠ 2) (c s c' s' : ℤ) (hc : ¬ (r : ℤ) ∣ c - c') :
    ∃ x, extract (Scalar.new · r) c s c' s' = Scalar.new x r ∧ (r : ℤ) ∣ x * (c - c') - (s - s') := by
  obtain ⟨x, hx, hd⟩ := scalar_div_new hr h2 (s - s') (c - c') hc
  exact ⟨x, by simp only [extract, scalar_new_eq r hr.one_le, R.ok_bind, scalar_sub_new hr.one_le, hx], hd⟩

theorem log_eq {G : Type} [AddCommGroup G] {A B C : G} {r : ℕ} (hr : r.Prime) (hA : r • A = 0) (hB : r • B = 0) {c s c' s' x : ℤ}
    (hc : ¬ (r : ℤ) ∣ c - c') (hd : (r : ℤ) ∣ x * (c - c') - (s - s')) (h1 : s • A = C + c • B) (h2 : s' • A = C + c' • B) : x • A = B := by
  obtain ⟨w, hw⟩ := exists_inv hr hc
  have e1 : (s - s') • A = (c - c') • B := by
    rw [sub_smul, sub_smul, h1, h2]; abel
  have e2 : (c - c') • (x • A) = (c - c') • B := by
    rw [← e1, ← mul_smul, mul_comm]
    exact smul_congr hA hd
  have e3 : ∀ D : G, r • D = 0 → D = w • ((c - c') • D) := fun D hD => by
    rw [← mul_smul]
    nth_rewrite 1 [← one_smul ℤ D]
    exact (smul_congr hD hw).symm
  rw [e3 (x • A) (by rw [smul_comm, hA, smul_zero]), e2, ← e3 B hB]

section
variable (p : ℕ) [Fact p.Prime]

/-- The verifier's check of a commitment `K`, a challenge `c` and a response `s` (Weierstrass). -/
def wPok (prof : Profile) (e : Weierstrass.Curve) (P Q K : Weierstrass.Point) (c s : ℤ) : R Bool := do
  (← P.mul prof (← e.newScalar s)).eq (← K.add (← Q.mul prof (← e.newScalar c)))

/-- A commitment computed after the challenge and the response are known (Weierstrass). -/
def wSim (prof : Profile) (e : Weierstrass.Curve) (P Q : Weierstrass.Point) (c s : ℤ) : R Weierstrass.Point := do
  (← P.mul prof (← e.newScalar s)).sub (← Q.mul prof (← e.newScalar c))

/-- C118, Weierstrass: for every base, key and commitment the check gives a verdict, which is whether `s A = C + c B`. -/
theorem _root_.Redox.Props.C118_weierstrass (e : Weierstrass.Curve) (h : WValid p e) (prof : Profile) (P Q K : Weierstrass.Point) (A B C : (wGroup p e).Point)
    (hP : WDenotes p e P A) (hQ : WDenotes p e Q B) (hK : WDenotes p e K C) (hA : e.getOrder • A = 0) (hB : e.getOrder • B = 0) (c s : ℤ)
    (h0 : (¬ (e.getOrder : ℤ) ∣ c ∧ ¬ (e.getOrder : ℤ) ∣ s) ∨ prof = .release) :
    wPok prof e P Q K c s = R.ok (decide (s • A = C + c • B)) := by
  obtain ⟨t, S, ht, hS, dS⟩ := w_mul p e h prof hP hA s (h0.imp (·.2) id)
  obtain ⟨u, U, hu, hU, dU⟩ := w_mul p e h prof hQ hB c (h0.imp (·.1) id)
  obtain ⟨W, hW, dW⟩ := (C23_group_law p e h.curve h.complete K U _ _ hK dU).1
  simp only [wPok, ht, hS, hu, hU, hW, R.ok_bind]
  exact w_eq p e dS dW

/-- C118, Weierstrass: from accepted responses to two challenges for one commitment, the scalar operations compute a discrete logarithm of the key. The key is not assumed
to have one. -/
theorem _root_.Redox.Props.C118_weierstrass_sound (e : Weierstrass.Curve) (h : WValid p e) (hr2 : e.getOrder ≠ 2) (prof : Profile) (P Q K : Weierstrass.Point) (A B C : (wGroup p e).Point)
    (hP : WDenotes p e P A) (hQ : WDenotes p e Q B) (hK : WDenotes p e K C) (hA : e.getOrder • A = 0) (hB : e.getOrder • B = 0) (c s c' s' : ℤ)
    (hc : ¬ (e.getOrder : ℤ) ∣ c - c') (h0 : (∀ a ∈ [c, s, c', s', s - s'], ¬ (e.getOrder : ℤ) ∣ a) ∨ prof = .release)
    (h1 : wPok prof e P Q K c s = R.ok true) (h2 : wPok prof e P Q K c' s' = R.ok true) :
    (do (← P.mul prof (← extract e.newScalar c s c' s')).eq Q) = R.ok true := by
  rw [C118_weierstrass p e h prof P Q K A B C hP hQ hK hA hB c s (h0.imp (fun h => ⟨h _ (by simp), h _ (by simp)⟩) id), R.ok.injEq, decide_eq_true_iff] at h1
  rw [C118_weierstrass p e h prof P Q K A B C hP hQ hK hA hB c' s' (h0.imp (fun h => ⟨h _ (by simp), h _ (by simp)⟩) id), R.ok.injEq, decide_eq_true_iff] at h2
  have hrp := h.order_prime
  simp only [Weierstrass.Curve.getOrder] at hr2 hrp hA hB hc h0
  obtain ⟨x, hx, hd⟩ := extract_eq hrp hr2 c s c' s' hc
  have hx0 : ¬ (e.r : ℤ) ∣ x ∨ prof = .release := h0.imp (fun h hx => h (s - s') (by simp) ((Int.dvd_iff_dvd_of_dvd_sub hd).1 (Dvd.dvd.mul_right hx _))) id
  obtain ⟨t, X, ht, hX, dX⟩ := w_mul p e h prof hP hA x hx0
  have hx' : extract e.newScalar c s c' s' = R.ok t := hx.trans ht
  simp only [hx', hX, R.ok_bind, w_eq p e dX hQ]
  rw [decide_eq_true (log_eq hrp hA hB hc hd h1 h2)]

/-- C118, Weierstrass: for every challenge and response a commitment can be computed for which they are accepted, without the discrete logarithm; and it is the only one:
the verdict on any commitment is whether it is `==` to this one. -/
theorem _root_.Redox.Props.C118_weierstrass_simulate (e : Weierstrass.Curve) (h : WValid p e) (prof : Profile) (P Q : Weierstrass.Point) (A B : (wGroup p e).Point)
    (hP : WDenotes p e P A) (hQ : WDenotes p e Q B) (hA : e.getOrder • A = 0) (hB : e.getOrder • B = 0) (c s : ℤ)
    (h0 : (¬ (e.getOrder : ℤ) ∣ c ∧ ¬ (e.getOrder : ℤ) ∣ s) ∨ prof = .release) :
    ∃ K, wSim prof e P Q c s = R.ok K ∧ wPok prof e P Q K c s = R.ok true ∧
      ∀ K' C, WDenotes p e K' C → wPok prof e P Q K' c s = K'.eq K := by
  obtain ⟨t, S, ht, hS, dS⟩ := w_mul p e h prof hP hA s (h0.imp (·.2) id)
  obtain ⟨u, U, hu, hU, dU⟩ := w_mul p e h prof hQ hB c (h0.imp (·.1) id)
  obtain ⟨K, hK, dK⟩ := (C23_group_law p e h.curve h.complete S U _ _ dS dU).2.1
  have key : ∀ K' C, WDenotes p e K' C → wPok prof e P Q K' c s = K'.eq K := by
    intro K' C hC
    rw [C118_weierstrass p e h prof P Q K' A B C hP hQ hC hA hB c s h0, w_eq p e hC dK, R.ok.injEq]
    exact decide_eq_decide.2 ⟨fun h => (eq_sub_of_add_eq h.symm), fun h => by rw [h, sub_add_cancel]⟩
  refine ⟨K, by simp only [wSim, ht, hS, hu, hU, hK, R.ok_bind], ?_, key⟩
  rw [key K _ dK, w_eq p e dK dK, decide_eq_true rfl]

/-- The verifier's check of a commitment `K`, a challenge `c` and a response `s` (Montgomery). -/
def mPok (prof : Profile) (e : Montgomery.Curve) (P Q K : Montgomery.Point) (c s : ℤ) : R Bool := do
  (← P.mul prof (← e.newScalar s)).eq (← K.add (← Q.mul prof (← e.newScalar c)))

/-- A commitment computed after the challenge and the response are known (Montgomery). -/
def mSim (prof : Profile) (e : Montgomery.Curve) (P Q : Montgomery.Point) (c s : ℤ) : R Montgomery.Point := do
  (← P.mul prof (← e.newScalar s)).sub (← Q.mul prof (← e.newScalar c))

/-- C118, Montgomery: for every base, key and commitment the check gives a verdict, which is whether `s A = C + c B`. -/
theorem _root_.Redox.Props.C118_montgomery (e : Montgomery.Curve) (h : MValid p e) (prof : Profile) (P Q K : Montgomery.Point) (A B C : (mGroup p e).Point)
    (hP : MDenotes p e P A) (hQ : MDenotes p e Q B) (hK : MDenotes p e K C) (hA : e.getOrder • A = 0) (hB : e.getOrder • B = 0) (c s : ℤ)
    (h0 : (¬ (e.getOrder : ℤ) ∣ c ∧ ¬ (e.getOrder : ℤ) ∣ s) ∨ prof = .release) :
    mPok prof e P Q K c s = R.ok (decide (s • A = C + c • B)) := by
  obtain ⟨t, S, ht, hS, dS⟩ := m_mul p e h prof hP hA s (h0.imp (·.2) id)
  obtain ⟨u, U, hu, hU, dU⟩ := m_mul p e h prof hQ hB c (h0.imp (·.1) id)
  obtain ⟨W, hW, dW⟩ := (C32_group_law_partial p e h.curve h.b_one h.complete K U _ _ hK dU).1
  simp only [mPok, ht, hS, hu, hU, hW, R.ok_bind]
  exact m_eq p e dS dW

/-- C118, Montgomery: from accepted responses to two challenges for one commitment, the scalar operations compute a discrete logarithm of the key. The key is not assumed
to have one. -/
theorem _root_.Redox.Props.C118_montgomery_sound (e : Montgomery.Curve) (h : MValid p e) (hr2 : e.getOrder ≠ 2) (prof : Profile) (P Q K : Montgomery.Point) (A B C : (mGroup p e).Point)
    (hP : MDenotes p e P A) (hQ : MDenotes p e Q B) (hK : MDenotes p e K C) (hA : e.getOrder • A = 0) (hB : e.getOrder • B = 0) (c s c' s' : ℤ)
    (hc : ¬ (e.getOrder : ℤ) ∣ c - c') (h0 : (∀ a ∈ [c, s, c', s', s - s'], ¬ (e.getOrder : ℤ) ∣ a) ∨ prof = .release)
    (h1 : mPok prof e P Q K c s = R.ok true) (h2 : mPok prof e P Q K c' s' = R.ok true) :
    (do (← P.mul prof (← extract e.newScalar c s c' s')).eq Q) = R.ok true := by
  rw [C118_montgomery p e h prof P Q K A B C hP hQ hK hA hB c s (h0.imp (fun h => ⟨h _ (by simp), h _ (by simp)⟩) id), R.ok.injEq, decide_eq_true_iff] at h1
  rw [C118_montgomery p e h prof P Q K A B C hP hQ hK hA hB c' s' (h0.imp (fun h => ⟨h _ (by simp), h _ (by simp)⟩) id), R.ok.injEq, decide_eq_true_iff] at h2
  have hrp := h.order_prime
  simp only [Montgomery.Curve.getOrder] at hr2 hrp hA hB hc h0
  obtain ⟨x, hx, hd⟩ := extract_eq hrp hr2 c s c' s' hc
  have hx0 : ¬ (e.r : ℤ) ∣ x ∨ prof = .release := h0.imp (fun h hx => h (s - s') (by simp) ((Int.dvd_iff_dvd_of_dvd_sub hd).1 (Dvd.dvd.mul_right hx _))) id
  obtain ⟨t, X, ht, hX, dX⟩ := m_mul p e h prof hP hA x hx0
  have hx' : extract e.newScalar c s c' s' = R.ok t := hx.trans ht
  simp only [hx', hX, R.ok_bind, m_eq p e dX hQ]
  rw [decide_eq_true (log_eq hrp hA hB hc hd h1 h2)]

/-- C118, Montgomery: for every challenge and response a commitment can be computed for which they are accepted, without the discrete logarithm; and it is the only one:
the verdict on any commitment is whether it is `==` to this one. -/
theorem _root_.Redox.Props.C118_montgomery_simulate (e : Montgomery.Curve) (h : MValid p e) (prof : Profile) (P Q : Montgomery.Point) (A B : (mGroup p e).Point)
    (hP : MDenotes p e P A) (hQ : MDenotes p e Q B) (hA : e.getOrder • A = 0) (hB : e.getOrder • B = 0) (c s : ℤ)
    (h0 : (¬ (e.getOrder : ℤ) ∣ c ∧ ¬ (e.getOrder : ℤ) ∣ s) ∨ prof = .release) :
    ∃ K, mSim prof e P Q c s = R.ok K ∧ mPok prof e P Q K c s = R.ok true ∧
      ∀ K' C, MDenotes p e K' C → mPok prof e P Q K' c s = K'.eq K := by
  obtain ⟨t, S, ht, hS, dS⟩ := m_mul p e h prof hP hA s (h0.imp (·.2) id)
  obtain ⟨u, U, hu, hU, dU⟩ := m_mul p e h prof hQ hB c (h0.imp (·.1) id)
  obtain ⟨K, hK, dK⟩ := (C32_group_law_partial p e h.curve h.b_one h.complete S U _ _ dS dU).2.1
  have key : ∀ K' C, MDenotes p e K' C → mPok prof e P Q K' c s = K'.eq K := by
    intro K' C hC
    rw [C118_montgomery p e h prof P Q K' A B C hP hQ hC hA hB c s h0, m_eq p e hC dK, R.ok.injEq]
    exact decide_eq_decide.2 ⟨fun h => (eq_sub_of_add_eq h.symm), fun h => by rw [h, sub_add_cancel]⟩
  refine ⟨K, by simp only [mSim, ht, hS, hu, hU, hK, R.ok_bind], ?_, key⟩
  rw [key K _ dK, m_eq p e dK dK, decide_eq_true rfl]

/-- The verifier's check of a commitment `K`, a challenge `c` and a response `s` (Edwards). -/
def ePok (prof : Profile) (e : Edwards.Curve) (P Q K : Edwards.Point) (c s : ℤ) : R Bool := do
  (← P.mul prof (← e.newScalar s)).eq (← K.add (← Q.mul prof (← e.newScalar c)))

/-- A commitment computed after the challenge and the response are known (Edwards). -/
def eSim (prof : Profile) (e : Edwards.Curve) (P Q : Edwards.Point) (c s : ℤ) : R Edwards.Point := do
  (← P.mul prof (← e.newScalar s)).sub (← Q.mul prof (← e.newScalar c))

/-- C118, Edwards: for every base, key and commitment the check gives a verdict, which is whether `s A = C + c B`. -/
theorem _root_.Redox.Props.C118_edwards (e : Edwards.Curve) (h : EValid p e) [ECurve p e] (prof : Profile) (P Q K : Edwards.Point) (A B C : eGroup p e)
    (hP : EDenotes p e P A) (hQ : EDenotes p e Q B) (hK : EDenotes p e K C) (hA : e.getOrder • A = 0) (hB : e.getOrder • B = 0) (c s : ℤ)
    (h0 : (¬ (e.getOrder : ℤ) ∣ c ∧ ¬ (e.getOrder : ℤ) ∣ s) ∨ prof = .release) :
    ePok prof e P Q K c s = R.ok (decide (s • A = C + c • B)) := by
  obtain ⟨t, S, ht, hS, dS⟩ := e_mul p e h prof hP hA s (h0.imp (·.2) id)
  obtain ⟨u, U, hu, hU, dU⟩ := e_mul p e h prof hQ hB c (h0.imp (·.1) id)
  obtain ⟨W, hW, dW⟩ := (C36_group_law p e K U _ _ hK dU).1
  simp only [ePok, ht, hS, hu, hU, hW, R.ok_bind]
  exact e_eq p e dS dW

/-- C118, Edwards: from accepted responses to two challenges for one commitment, the scalar operations compute a discrete logarithm of the key. The key is not assumed
to have one. -/
theorem _root_.Redox.Props.C118_edwards_sound (e : Edwards.Curve) (h : EValid p e) [ECurve p e] (hr2 : e.getOrder ≠ 2) (prof : Profile) (P Q K : Edwards.Point) (A B C : eGroup p e)
    (hP : EDenotes p e P A) (hQ : EDenotes p e Q B) (hK : EDenotes p e K C) (hA : e.getOrder • A = 0) (hB : e.getOrder • B = 0) (c s c' s' : ℤ)
    (hc : ¬ (e.getOrder : ℤ) ∣ c - c') (h0 : (∀ a ∈ [c, s, c', s', s - s'], ¬ (e.getOrder : ℤ) ∣ a) ∨ prof = .release)
    (h1 : ePok prof e P Q K c s = R.ok true) (h2 : ePok prof e P Q K c' s' = R.ok true) :
    (do (← P.mul prof (← extract e.newScalar c s c' s')).eq Q) = R.ok true := by
  rw [C118_edwards p e h prof P Q K A B C hP hQ hK hA hB c s (h0.imp (fun h => ⟨h _ (by simp), h _ (by simp)⟩) id), R.ok.injEq, decide_eq_true_iff] at h1
  rw [C118_edwards p e h prof P Q K A B C hP hQ hK hA hB c' s' (h0.imp (fun h => ⟨h _ (by simp), h _ (by simp)⟩) id), R.ok.injEq, decide_eq_true_iff] at h2
  have hrp := h.order_prime
  simp only [Edwards.Curve.getOrder] at hr2 hrp hA hB hc h0
  obtain ⟨x, hx, hd⟩ := extract_eq hrp hr2 c s c' s' hc
  have hx0 : ¬ (e.r : ℤ) ∣ x ∨ prof = .release := h0.imp (fun h hx => h (s - s') (by simp) ((Int.dvd_iff_dvd_of_dvd_sub hd).1 (Dvd.dvd.mul_right hx _))) id
  obtain ⟨t, X, ht, hX, dX⟩ := e_mul p e h prof hP hA x hx0
  have hx' : extract e.newScalar c s c' s' = R.ok t := hx.trans ht
  simp only [hx', hX, R.ok_bind, e_eq p e dX hQ]
  rw [decide_eq_true (log_eq hrp hA hB hc hd h1 h2)]

/-- C118, Edwards: for every challenge and response a commitment can be computed for which they are accepted, without the discrete logarithm; and it is the only one:
the verdict on any commitment is whether it is `==` to this one. -/
theorem _root_.Redox.Props.C118_edwards_simulate (e : Edwards.Curve) (h : EValid p e) [ECurve p e] (prof : Profile) (P Q : Edwards.Point) (A B : eGroup p e)
    (hP : EDenotes p e P A) (hQ : EDenotes p e Q B) (hA : e.getOrder • A = 0) (hB : e.getOrder • B = 0) (c s : ℤ)
    (h0 : (¬ (e.getOrder : ℤ) ∣ c ∧ ¬ (e.getOrder : ℤ) ∣ s) ∨ prof = .release) :
    ∃ K, eSim prof e P Q c s = R.ok K ∧ ePok prof e P Q K c s = R.ok true ∧
      ∀ K' C, EDenotes p e K' C → ePok prof e P Q K' c s = K'.eq K := by
  obtain ⟨t, S, ht, hS, dS⟩ := e_mul p e h prof hP hA s (h0.imp (·.2) id)
  obtain ⟨u, U, hu, hU, dU⟩ := e_mul p e h prof hQ hB c (h0.imp (·.1) id)
  obtain ⟨K, hK, dK⟩ := (C36_group_law p e S U _ _ dS dU).2.1
  have key : ∀ K' C, EDenotes p e K' C → ePok prof e P Q K' c s = K'.eq K := by
    intro K' C hC
    rw [C118_edwards p e h prof P Q K' A B C hP hQ hC hA hB c s h0, e_eq p e hC dK, R.ok.injEq]
    exact decide_eq_decide.2 ⟨fun h => (eq_sub_of_add_eq h.symm), fun h => by rw [h, sub_add_cancel]⟩
  refine ⟨K, by simp only [eSim, ht, hS, hu, hU, hK, R.ok_bind], ?_, key⟩
  rw [key K _ dK, e_eq p e dK dK, decide_eq_true rfl]

end

end Redox.Props.Pok
