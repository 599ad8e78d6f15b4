import Verif.Props.Threshold
import Verif.Props.SumProps

/-!
# C107: checking many signatures at once

A list of Schnorr signatures `G * s == K + A * h` is checked with one equation: each is multiplied by a coefficient and all are added up. The
programs below are what a user of the library writes.
-/

set_option linter.unusedSectionVars false

namespace Redox.Props.Threshold

open Spec Redox.Inst Redox.Props.Flow

/-- A signature with its public key `A`, nonce point `K`, challenge `h` and response `s`, and the coefficient `z` it gets in a batch. -/
structure BatchItem (P : Type) where
  z : ℤ
  s : ℤ
  h : ℤ
  pk : P
  nonce : P

/-- The terms of the right-hand side of the batch equation. -/
def batchTerms {P : Type} (l : List (BatchItem P)) : List (ℤ × P) := l.flatMap fun i => [(i.z, i.nonce), (i.z * i.h, i.pk)]

/-- The scalar of the left-hand side of the batch equation. -/
def batchScalar {P : Type} (l : List (BatchItem P)) : ℤ := (l.map fun i => i.z * i.s).sum

/-- No scalar of the batch is a multiple of `r`. -/
def BatchNonzero {P : Type} (r : ℕ) (l : List (BatchItem P)) : Prop :=
  ¬ (r : ℤ) ∣ batchScalar l ∧ ∀ i ∈ l, ¬ (r : ℤ) ∣ i.z ∧ ¬ (r : ℤ) ∣ i.z * i.h

section

variable {G P : Type} [AddCommGroup G]

theorem batch_sum (g : G) (l : List (BatchItem P × G × G)) :
    batchScalar (l.map (·.1)) • g = ((l.flatMap fun i => [(i.1.z, i.1.nonce, i.2.2), (i.1.z * i.1.h, i.1.pk, i.2.1)]).map fun x => x.1 • x.2.2).sum ↔
      (l.map fun i => i.1.z • (i.1.s • g - i.2.2 - i.1.h • i.2.1)).sum = 0 := by
  rw [← sub_eq_zero]
  have : ∀ l : List (BatchItem P × G × G), batchScalar (l.map (·.1)) • g -
      ((l.flatMap fun i => [(i.1.z, i.1.nonce, i.2.2), (i.1.z * i.1.h, i.1.pk, i.2.1)]).map fun x => x.1 • x.2.2).sum =
      (l.map fun i => i.1.z • (i.1.s • g - i.2.2 - i.1.h • i.2.1)).sum := by
    intro l
    induction l with
    | nil => simp [batchScalar]
    | cons i l ih =>
      simp only [batchScalar, List.map_cons, List.sum_cons, List.flatMap_cons, List.map_append, List.sum_append, List.map_nil, List.sum_nil] at ih ⊢
      rw [← ih, add_zsmul, mul_zsmul, mul_zsmul, zsmul_sub, zsmul_sub]
      abel
  rw [this]

theorem batch_terms (l : List (BatchItem P × G × G)) :
    batchTerms (l.map (·.1)) = (l.flatMap fun i => [(i.1.z, i.1.nonce, i.2.2), (i.1.z * i.1.h, i.1.pk, i.2.1)]).map fun x => (x.1, x.2.1) := by
  induction l with
  | nil => rfl
  | cons i l ih =>
    simp only [batchTerms, List.map_cons, List.flatMap_cons, List.map_append, List.map_nil] at ih ⊢
    rw [ih]

/-- Two accepted batches that differ in one coefficient only. -/
theorem batch_sound {r : ℕ} (hr : r.Prime) {g : G} (hg : r • g = 0) (pre post : List (BatchItem P × G × G)) (i j : BatchItem P × G × G)
    (hs : i.1.s = j.1.s) (hh : i.1.h = j.1.h) (hA : i.2 = j.2) (kA : r • i.2.1 = 0) (kK : r • i.2.2 = 0)
    (hz : ¬ (r : ℤ) ∣ i.1.z - j.1.z)
    (h1 : ((pre ++ i :: post).map fun i => i.1.z • (i.1.s • g - i.2.2 - i.1.h • i.2.1)).sum = 0)
    (h2 : ((pre ++ j :: post).map fun i => i.1.z • (i.1.s • g - i.2.2 - i.1.h • i.2.1)).sum = 0) : i.1.s • g = i.2.2 + i.1.h • i.2.1 := by
  simp only [List.map_append, List.map_cons, List.sum_append, List.sum_cons, ← hs, ← hh, ← hA] at h1 h2
  have hD : (i.1.z - j.1.z) • (i.1.s • g - i.2.2 - i.1.h • i.2.1) = 0 := by
    rw [sub_zsmul]
    have := h1.trans h2.symm
    rw [← sub_eq_add_neg, sub_eq_zero]
    exact add_right_cancel (add_left_cancel this)
  have hr0 : (r : ℤ) • (i.1.s • g - i.2.2 - i.1.h • i.2.1) = 0 := by
    rw [natCast_zsmul, nsmul_sub, nsmul_sub, smul_comm, hg, kK, smul_comm, kA]
    simp
  have hc : IsCoprime (i.1.z - j.1.z) (r : ℤ) := ((Nat.prime_iff_prime_int.1 hr).coprime_iff_not_dvd.2 hz).symm
  obtain ⟨a, b, hab⟩ := hc
  have : (i.1.s • g - i.2.2 - i.1.h • i.2.1) = 0 := by
    rw [← one_zsmul (i.1.s • g - i.2.2 - i.1.h • i.2.1), ← hab, add_zsmul, mul_zsmul, mul_zsmul, hD, hr0]
    simp
  rw [sub_sub, sub_eq_zero] at this
  exact this

end

section
variable (p : ℕ) [Fact p.Prime]

/-- The batch equation on a Weierstrass curve. -/
def wBatch (prof : Profile) (e : Weierstrass.Curve) (l : List (BatchItem Weierstrass.Point)) : R Bool := do
  let S ← (← e.getGenerator).mul prof (← e.newScalar (batchScalar l))
  S.eq (← wLincomb prof e (batchTerms l))

/-- C107, Weierstrass: for keys and nonce points killed by the order, the batch equation gives a verdict, and accepts exactly if the combination of the
differences of the two sides of the single equations is zero; so it accepts if all the signatures are right, whatever the coefficients. -/
theorem _root_.Redox.Props.C107_weierstrass (e : Weierstrass.Curve) (h : WValid p e) (prof : Profile) (G : Weierstrass.Point) (g : (wGroup p e).Point)
    (hG : e.getGenerator = R.ok G) (hg : WDenotes p e G g) (l : List (BatchItem Weierstrass.Point × (wGroup p e).Point × (wGroup p e).Point))
    (hl : ∀ i ∈ l, WDenotes p e i.1.pk i.2.1 ∧ WDenotes p e i.1.nonce i.2.2 ∧ e.getOrder • i.2.1 = 0 ∧ e.getOrder • i.2.2 = 0)
    (h0 : BatchNonzero e.getOrder (l.map (·.1)) ∨ prof = .release) :
    wBatch prof e (l.map (·.1)) = R.ok (decide ((l.map fun i => i.1.z • (i.1.s • g - i.2.2 - i.1.h • i.2.1)).sum = 0)) ∧
    ((∀ i ∈ l, i.1.s • g = i.2.2 + i.1.h • i.2.1) → wBatch prof e (l.map (·.1)) = R.ok true) := by
  have hr1 : 1 ≤ e.r := h.order_prime.one_le
  have hgk : e.r • g = 0 := by
    obtain ⟨G', g', hG', hg', ho⟩ := h.generator
    rw [hG, R.ok.injEq] at hG'
    subst hG'
    obtain rfl := C27_unique p e _ _ _ hg hg'
    have := addOrderOf_nsmul_eq_zero g
    rwa [ho] at this
  obtain ⟨S, hS, dS⟩ := C26_integer p e h.curve h.complete h.order_bits hr1 prof G g hg hgk (batchScalar (l.map (·.1))) (h0.imp (fun h => h.1) id)
  obtain ⟨T, hT, dT⟩ := C97_weierstrass p e h prof (l.flatMap fun i => [(i.1.z, i.1.nonce, i.2.2), (i.1.z * i.1.h, i.1.pk, i.2.1)]) (by
      intro x hx
      obtain ⟨i, hi, hx⟩ := List.mem_flatMap.1 hx
      obtain ⟨h1, h2, h3, h4⟩ := hl i hi
      simp only [List.mem_cons, List.not_mem_nil, or_false] at hx
      rcases hx with rfl | rfl
      · exact ⟨h2, h4⟩
      · exact ⟨h1, h3⟩) (h0.imp (fun h x hx => by
      obtain ⟨i, hi, hx⟩ := List.mem_flatMap.1 hx
      have := h.2 i.1 (List.mem_map_of_mem hi)
      simp only [List.mem_cons, List.not_mem_nil, or_false] at hx
      rcases hx with rfl | rfl
      · exact this.1
      · exact this.2) id)
  have hrun : wBatch prof e (l.map (·.1)) = R.ok (decide ((l.map fun i => i.1.z • (i.1.s • g - i.2.2 - i.1.h • i.2.1)).sum = 0)) := by
    obtain ⟨s, hs, hS⟩ := R.bind_eq_ok.1 hS
    rw [← batch_terms] at hT
    simp only [wBatch, hG, R.ok_bind, hs, hS, hT]
    rw [C27_eq p e _ _ _ _ dS dT, R.ok.injEq]
    exact decide_eq_decide.2 (batch_sum g l)
  refine ⟨hrun, fun hall => ?_⟩
  rw [hrun, R.ok.injEq, decide_eq_true_eq]
  refine List.sum_eq_zero fun x hx => ?_
  obtain ⟨i, hi, rfl⟩ := List.mem_map.1 hx
  rw [hall i hi]
  simp

/-- C107, Weierstrass, soundness: if a batch is accepted, and accepted again after changing the coefficient of one signature (modulo the order) and nothing
else, then that signature is right. So for a wrong one, whatever the rest, at most one residue of its coefficient makes the batch accept. -/
theorem _root_.Redox.Props.C107_weierstrass_sound (e : Weierstrass.Curve) (h : WValid p e) (prof : Profile) (G : Weierstrass.Point) (g : (wGroup p e).Point)
    (hG : e.getGenerator = R.ok G) (hg : WDenotes p e G g) (pre post : List (BatchItem Weierstrass.Point × (wGroup p e).Point × (wGroup p e).Point))
    (i : BatchItem Weierstrass.Point) (A K : (wGroup p e).Point) (z' : ℤ)
    (hl : ∀ j ∈ pre ++ (i, A, K) :: post, WDenotes p e j.1.pk j.2.1 ∧ WDenotes p e j.1.nonce j.2.2 ∧ e.getOrder • j.2.1 = 0 ∧ e.getOrder • j.2.2 = 0)
    (h0 : (BatchNonzero e.getOrder ((pre ++ (i, A, K) :: post).map (·.1)) ∧
      BatchNonzero e.getOrder ((pre ++ ({ i with z := z' }, A, K) :: post).map (·.1))) ∨ prof = .release)
    (hz : ¬ (e.getOrder : ℤ) ∣ i.z - z')
    (h1 : wBatch prof e ((pre ++ (i, A, K) :: post).map (·.1)) = R.ok true)
    (h2 : wBatch prof e ((pre ++ ({ i with z := z' }, A, K) :: post).map (·.1)) = R.ok true) :
    i.s • g = K + i.h • A := by
  rw [(C107_weierstrass p e h prof G g hG hg _ hl (h0.imp (fun h => h.1) id)).1, R.ok.injEq, decide_eq_true_eq] at h1
  rw [(C107_weierstrass p e h prof G g hG hg _ (by
    intro j hj
    rw [List.mem_append, List.mem_cons] at hj
    rcases hj with hj | rfl | hj
    · exact hl j (by simp [hj])
    · exact hl (i, A, K) (by simp)
    · exact hl j (by simp [hj])) (h0.imp (fun h => h.2) id)).1, R.ok.injEq, decide_eq_true_eq] at h2
  have hgk : e.r • g = 0 := by
    obtain ⟨G', g', hG', hg', ho⟩ := h.generator
    rw [hG, R.ok.injEq] at hG'
    subst hG'
    obtain rfl := C27_unique p e _ _ _ hg hg'
    have := addOrderOf_nsmul_eq_zero g
    rwa [ho] at this
  obtain ⟨-, -, kA, kK⟩ := hl (i, A, K) (by simp)
  exact batch_sound h.order_prime hgk pre post (i, A, K) ({ i with z := z' }, A, K) rfl rfl rfl kA kK hz h1 h2

/-- The batch equation on a Montgomery curve. -/
def mBatch (prof : Profile) (e : Montgomery.Curve) (l : List (BatchItem Montgomery.Point)) : R Bool := do
  let S ← (← e.getGenerator).mul prof (← e.newScalar (batchScalar l))
  S.eq (← mLincomb prof e (batchTerms l))

/-- C107, Montgomery: for keys and nonce points killed by the order, the batch equation gives a verdict, and accepts exactly if the combination of the
differences of the two sides of the single equations is zero; so it accepts if all the signatures are right, whatever the coefficients. -/
theorem _root_.Redox.Props.C107_montgomery (e : Montgomery.Curve) (h : MValid p e) (prof : Profile) (G : Montgomery.Point) (g : (mGroup p e).Point)
    (hG : e.getGenerator = R.ok G) (hg : MDenotes p e G g) (l : List (BatchItem Montgomery.Point × (mGroup p e).Point × (mGroup p e).Point))
    (hl : ∀ i ∈ l, MDenotes p e i.1.pk i.2.1 ∧ MDenotes p e i.1.nonce i.2.2 ∧ e.getOrder • i.2.1 = 0 ∧ e.getOrder • i.2.2 = 0)
    (h0 : BatchNonzero e.getOrder (l.map (·.1)) ∨ prof = .release) :
    mBatch prof e (l.map (·.1)) = R.ok (decide ((l.map fun i => i.1.z • (i.1.s • g - i.2.2 - i.1.h • i.2.1)).sum = 0)) ∧
    ((∀ i ∈ l, i.1.s • g = i.2.2 + i.1.h • i.2.1) → mBatch prof e (l.map (·.1)) = R.ok true) := by
  have hr1 : 1 ≤ e.r := h.order_prime.one_le
  have hgk : e.r • g = 0 := by
    obtain ⟨G', g', hG', hg', ho⟩ := h.generator
    rw [hG, R.ok.injEq] at hG'
    subst hG'
    obtain rfl := EdMap.mDenotes_unique hg hg'
    have := addOrderOf_nsmul_eq_zero g
    rwa [ho] at this
  obtain ⟨S, hS, dS⟩ := C33_integer_partial p e h.curve h.b_one h.complete h.order_bits hr1 prof G g hg hgk (batchScalar (l.map (·.1))) (h0.imp (fun h => h.1) id)
  obtain ⟨T, hT, dT⟩ := C97_montgomery p e h prof (l.flatMap fun i => [(i.1.z, i.1.nonce, i.2.2), (i.1.z * i.1.h, i.1.pk, i.2.1)]) (by
      intro x hx
      obtain ⟨i, hi, hx⟩ := List.mem_flatMap.1 hx
      obtain ⟨h1, h2, h3, h4⟩ := hl i hi
      simp only [List.mem_cons, List.not_mem_nil, or_false] at hx
      rcases hx with rfl | rfl
      · exact ⟨h2, h4⟩
      · exact ⟨h1, h3⟩) (h0.imp (fun h x hx => by
      obtain ⟨i, hi, hx⟩ := List.mem_flatMap.1 hx
      have := h.2 i.1 (List.mem_map_of_mem hi)
      simp only [List.mem_cons, List.not_mem_nil, or_false] at hx
      rcases hx with rfl | rfl
      · exact this.1
      · exact this.2) id)
  have hrun : mBatch prof e (l.map (·.1)) = R.ok (decide ((l.map fun i => i.1.z • (i.1.s • g - i.2.2 - i.1.h • i.2.1)).sum = 0)) := by
    obtain ⟨s, hs, hS⟩ := R.bind_eq_ok.1 hS
    rw [← batch_terms] at hT
    simp only [mBatch, hG, R.ok_bind, hs, hS, hT]
    rw [(fun {A B} hA hB => (C32_eq p e _ _ A B hA hB).1) dS dT, R.ok.injEq]
    exact decide_eq_decide.2 (batch_sum g l)
  refine ⟨hrun, fun hall => ?_⟩
  rw [hrun, R.ok.injEq, decide_eq_true_eq]
  refine List.sum_eq_zero fun x hx => ?_
  obtain ⟨i, hi, rfl⟩ := List.mem_map.1 hx
  rw [hall i hi]
  simp

/-- C107, Montgomery, soundness: if a batch is accepted, and accepted again after changing the coefficient of one signature (modulo the order) and nothing
else, then that signature is right. So for a wrong one, whatever the rest, at most one residue of its coefficient makes the batch accept. -/
theorem _root_.Redox.Props.C107_montgomery_sound (e : Montgomery.Curve) (h : MValid p e) (prof : Profile) (G : Montgomery.Point) (g : (mGroup p e).Point)
    (hG : e.getGenerator = R.ok G) (hg : MDenotes p e G g) (pre post : List (BatchItem Montgomery.Point × (mGroup p e).Point × (mGroup p e).Point))
    (i : BatchItem Montgomery.Point) (A K : (mGroup p e).Point) (z' : ℤ)
    (hl : ∀ j ∈ pre ++ (i, A, K) :: post, MDenotes p e j.1.pk j.2.1 ∧ MDenotes p e j.1.nonce j.2.2 ∧ e.getOrder • j.2.1 = 0 ∧ e.getOrder • j.2.2 = 0)
    (h0 : (BatchNonzero e.getOrder ((pre ++ (i, A, K) :: post).map (·.1)) ∧
      BatchNonzero e.getOrder ((pre ++ ({ i with z := z' }, A, K) :: post).map (·.1))) ∨ prof = .release)
    (hz : ¬ (e.getOrder : ℤ) ∣ i.z - z')
    (h1 : mBatch prof e ((pre ++ (i, A, K) :: post).map (·.1)) = R.ok true)
    (h2 : mBatch prof e ((pre ++ ({ i with z := z' }, A, K) :: post).map (·.1)) = R.ok true) :
    i.s • g = K + i.h • A := by
  rw [(C107_montgomery p e h prof G g hG hg _ hl (h0.imp (fun h => h.1) id)).1, R.ok.injEq, decide_eq_true_eq] at h1
  rw [(C107_montgomery p e h prof G g hG hg _ (by
    intro j hj
    rw [List.mem_append, List.mem_cons] at hj
    rcases hj with hj | rfl | hj
    · exact hl j (by simp [hj])
    · exact hl (i, A, K) (by simp)
    · exact hl j (by simp [hj])) (h0.imp (fun h => h.2) id)).1, R.ok.injEq, decide_eq_true_eq] at h2
  have hgk : e.r • g = 0 := by
    obtain ⟨G', g', hG', hg', ho⟩ := h.generator
    rw [hG, R.ok.injEq] at hG'
    subst hG'
    obtain rfl := EdMap.mDenotes_unique hg hg'
    have := addOrderOf_nsmul_eq_zero g
    rwa [ho] at this
  obtain ⟨-, -, kA, kK⟩ := hl (i, A, K) (by simp)
  exact batch_sound h.order_prime hgk pre post (i, A, K) ({ i with z := z' }, A, K) rfl rfl rfl kA kK hz h1 h2

/-- The batch equation on an Edwards curve. -/
def eBatch (prof : Profile) (e : Edwards.Curve) (l : List (BatchItem Edwards.Point)) : R Bool := do
  let S ← (← e.getGenerator).mul prof (← e.newScalar (batchScalar l))
  S.eq (← eLincomb prof e (batchTerms l))

/-- C107, Edwards: for keys and nonce points killed by the order, the batch equation gives a verdict, and accepts exactly if the combination of the
differences of the two sides of the single equations is zero; so it accepts if all the signatures are right, whatever the coefficients. -/
theorem _root_.Redox.Props.C107_edwards (e : Edwards.Curve) (h : EValid p e) [ECurve p e] (prof : Profile) (G : Edwards.Point) (g : eGroup p e)
    (hG : e.getGenerator = R.ok G) (hg : EDenotes p e G g) (l : List (BatchItem Edwards.Point × eGroup p e × eGroup p e))
    (hl : ∀ i ∈ l, EDenotes p e i.1.pk i.2.1 ∧ EDenotes p e i.1.nonce i.2.2 ∧ e.getOrder • i.2.1 = 0 ∧ e.getOrder • i.2.2 = 0)
    (h0 : BatchNonzero e.getOrder (l.map (·.1)) ∨ prof = .release) :
    eBatch prof e (l.map (·.1)) = R.ok (decide ((l.map fun i => i.1.z • (i.1.s • g - i.2.2 - i.1.h • i.2.1)).sum = 0)) ∧
    ((∀ i ∈ l, i.1.s • g = i.2.2 + i.1.h • i.2.1) → eBatch prof e (l.map (·.1)) = R.ok true) := by
  have hr1 : 1 ≤ e.r := h.order_prime.one_le
  have hgk : e.r • g = 0 := by
    obtain ⟨G', g', hG', hg', ho⟩ := h.generator
    rw [hG, R.ok.injEq] at hG'
    subst hG'
    obtain rfl := EdMap.eDenotes_unique hg hg'
    have := addOrderOf_nsmul_eq_zero g
    rwa [ho] at this
  obtain ⟨S, hS, dS⟩ := C37_integer_partial p e h.order_bits hr1 prof G g hg hgk (batchScalar (l.map (·.1))) (h0.imp (fun h => h.1) id)
  obtain ⟨T, hT, dT⟩ := C97_edwards p e h prof (l.flatMap fun i => [(i.1.z, i.1.nonce, i.2.2), (i.1.z * i.1.h, i.1.pk, i.2.1)]) (by
      intro x hx
      obtain ⟨i, hi, hx⟩ := List.mem_flatMap.1 hx
      obtain ⟨h1, h2, h3, h4⟩ := hl i hi
      simp only [List.mem_cons, List.not_mem_nil, or_false] at hx
      rcases hx with rfl | rfl
      · exact ⟨h2, h4⟩
      · exact ⟨h1, h3⟩) (h0.imp (fun h x hx => by
      obtain ⟨i, hi, hx⟩ := List.mem_flatMap.1 hx
      have := h.2 i.1 (List.mem_map_of_mem hi)
      simp only [List.mem_cons, List.not_mem_nil, or_false] at hx
      rcases hx with rfl | rfl
      · exact this.1
      · exact this.2) id)
  have hrun : eBatch prof e (l.map (·.1)) = R.ok (decide ((l.map fun i => i.1.z • (i.1.s • g - i.2.2 - i.1.h • i.2.1)).sum = 0)) := by
    obtain ⟨s, hs, hS⟩ := R.bind_eq_ok.1 hS
    rw [← batch_terms] at hT
    simp only [eBatch, hG, R.ok_bind, hs, hS, hT]
    rw [C36_eq p e _ _ _ _ dS dT, R.ok.injEq]
    exact decide_eq_decide.2 (batch_sum g l)
  refine ⟨hrun, fun hall => ?_⟩
  rw [hrun, R.ok.injEq, decide_eq_true_eq]
  refine List.sum_eq_zero fun x hx => ?_
  obtain ⟨i, hi, rfl⟩ := List.mem_map.1 hx
  rw [hall i hi]
  simp

/-- C107, Edwards, soundness: if a batch is accepted, and accepted again after changing the coefficient of one signature (modulo the order) and nothing
else, then that signature is right. So for a wrong one, whatever the rest, at most one residue of its coefficient makes the batch accept. -/
theorem _root_.Redox.Props.C107_edwards_sound (e : Edwards.Curve) (h : EValid p e) [ECurve p e] (prof : Profile) (G : Edwards.Point) (g : eGroup p e)
    (hG : e.getGenerator = R.ok G) (hg : EDenotes p e G g) (pre post : List (BatchItem Edwards.Point × eGroup p e × eGroup p e))
    (i : BatchItem Edwards.Point) (A K : eGroup p e) (z' : ℤ)
    (hl : ∀ j ∈ pre ++ (i, A, K) :: post, EDenotes p e j.1.pk j.2.1 ∧ EDenotes p e j.1.nonce j.2.2 ∧ e.getOrder • j.2.1 = 0 ∧ e.getOrder • j.2.2 = 0)
    (h0 : (BatchNonzero e.getOrder ((pre ++ (i, A, K) :: post).map (·.1)) ∧
      BatchNonzero e.getOrder ((pre ++ ({ i with z := z' }, A, K) :: post).map (·.1))) ∨ prof = .release)
    (hz : ¬ (e.getOrder : ℤ) ∣ i.z - z')
    (h1 : eBatch prof e ((pre ++ (i, A, K) :: post).map (·.1)) = R.ok true)
    (h2 : eBatch prof e ((pre ++ ({ i with z := z' }, A, K) :: post).map (·.1)) = R.ok true) :
    i.s • g = K + i.h • A := by
  rw [(C107_edwards p e h prof G g hG hg _ hl (h0.imp (fun h => h.1) id)).1, R.ok.injEq, decide_eq_true_eq] at h1
  rw [(C107_edwards p e h prof G g hG hg _ (by
    intro j hj
    rw [List.mem_append, List.mem_cons] at hj
    rcases hj with hj | rfl | hj
    · exact hl j (by simp [hj])
    · exact hl (i, A, K) (by simp)
    · exact hl j (by simp [hj])) (h0.imp (fun h => h.2) id)).1, R.ok.injEq, decide_eq_true_eq] at h2
  have hgk : e.r • g = 0 := by
    obtain ⟨G', g', hG', hg', ho⟩ := h.generator
    rw [hG, R.ok.injEq] at hG'
    subst hG'
    obtain rfl := EdMap.eDenotes_unique hg hg'
    have := addOrderOf_nsmul_eq_zero g
    rwa [ho] at this
  obtain ⟨-, -, kA, kK⟩ := hl (i, A, K) (by simp)
  exact batch_sound h.order_prime hgk pre post (i, A, K) ({ i with z := z' }, A, K) rfl rfl rfl kA kK hz h1 h2

/-- C107, Edwards, why keys and nonce points have to be killed by the order: add `(0, -1)` to the nonce point of a right signature. The single check
rejects it, and the batch with the coefficient 2 accepts it. -/
theorem _root_.Redox.Props.C107_edwards_torsion (e : Edwards.Curve) (h : EValid p e) [he : ECurve p e] (hr2 : e.getOrder ≠ 2) (prof : Profile)
    (G : Edwards.Point) (g : eGroup p e) (hG : e.getGenerator = R.ok G) (hg : EDenotes p e G g) (Q K : Edwards.Point) (A B : eGroup p e)
    (hQ : EDenotes p e Q A) (hK : EDenotes p e K B) (kA : e.getOrder • A = 0) (s c : ℤ) (hok : s • g = B + c • A)
    (h0 : (¬ (e.getOrder : ℤ) ∣ s ∧ ¬ (e.getOrder : ℤ) ∣ c) ∨ prof = .release) :
    ∃ T K', (do e.newPoint (← e.f.zero) (← (← e.f.one).neg)) = R.ok T ∧ K.add T = R.ok K' ∧
      (do (← (← e.getGenerator).mul prof (← e.newScalar s)).eq (← K'.add (← Q.mul prof (← e.newScalar c)))) = R.ok false ∧
      eBatch prof e [⟨2, s, c, Q, K'⟩] = R.ok true := by
  have hrp : e.r.Prime := h.order_prime
  have hr1 : 1 ≤ e.r := hrp.one_le
  have hr3 : 2 < e.r := lt_of_le_of_ne hrp.two_le (Ne.symm hr2)
  have hodd : ¬ (e.r : ℤ) ∣ 2 := fun hd => by
    have := Int.le_of_dvd (by norm_num) hd
    omega
  have hgk : e.r • g = 0 := by
    obtain ⟨G', g', hG', hg', ho⟩ := h.generator
    rw [hG, R.ok.injEq] at hG'
    subst hG'
    obtain rfl := EdMap.eDenotes_unique hg hg'
    have := addOrderOf_nsmul_eq_zero g
    rwa [ho] at this
  have two := (instEdCurve p e).two
  obtain ⟨t, T, hT, dT, ht0, ht2⟩ : ∃ (t : eGroup p e) (T : Edwards.Point), (do e.newPoint (← e.f.zero) (← (← e.f.one).neg)) = R.ok T ∧
      EDenotes p e T t ∧ t ≠ 0 ∧ t + t = 0 := by
    refine ⟨⟨0, -1, by ring⟩, ELink.pt e (0 : ZMod p) (-1) (0 * -1) 1, ?_, ?_, ?_, ?_⟩
    · rw [he.params.field, zero_eq, R.ok_bind, one_eq, R.ok_bind, neg_el, R.ok_bind, ELink.newPoint_pt he.params, if_pos (by ring)]
    · exact ELink.denotes_iff.2 ⟨_, _, _, _, rfl, one_ne_zero, by simp, by simp, by simp⟩
    · intro h1
      have h1 : (-1 : ZMod p) = 1 := congrArg Edw.EPt.y h1
      exact two (by linear_combination -h1)
    · obtain ⟨hx, hy, -, -, -, -, h1, h2, -⟩ := eGroup_law p e (⟨0, -1, by ring⟩ : eGroup p e) ⟨0, -1, by ring⟩
      ext
      · rw [hx, h1]; simp
      · rw [hy, h2]; simp
  obtain ⟨K', hK', dK'⟩ := (C36_group_law p e K T _ _ hK dT).1
  obtain ⟨S, hS, dS⟩ := C37_integer_partial p e h.order_bits hr1 prof G g hg hgk s (h0.imp (fun h => h.1) id)
  obtain ⟨U, hU, dU⟩ := C37_integer_partial p e h.order_bits hr1 prof Q A hQ kA c (h0.imp (fun h => h.2) id)
  obtain ⟨V, hV, dV⟩ := (C36_group_law p e K' U _ _ dK' dU).1
  have prime2 : ∀ n : ℤ, ¬ (e.r : ℤ) ∣ n → ¬ (e.r : ℤ) ∣ 2 * n := fun n hn hd =>
    ((Nat.prime_iff_prime_int.1 hrp).dvd_or_dvd hd).elim hodd hn
  obtain ⟨S2, hS2, dS2⟩ := C37_integer_partial p e h.order_bits hr1 prof G g hg hgk (2 * s) (h0.imp (fun h => prime2 s h.1) id)
  obtain ⟨U2, hU2, dU2⟩ := C37_integer_partial p e h.order_bits hr1 prof Q A hQ kA (2 * c) (h0.imp (fun h => prime2 c h.2) id)
  obtain ⟨W, hW, dW⟩ := C37_mul_partial p e h.order_bits prof K' _ dK' ⟨2, e.r⟩ ⟨rfl, by norm_num, by show (2 : ℤ) < e.r; exact_mod_cast hr3⟩ (Or.inl (by norm_num))
  have hI := ELink.identity_pt (p := p) (e := e) he.params
  obtain ⟨X, hX, dX⟩ := (C36_group_law p e U2 _ _ _ dU2 ELink.identity_denotes).1
  obtain ⟨Y, hY, dY⟩ := (C36_group_law p e W X _ _ dW dX).1
  obtain ⟨s1, hs1, hS⟩ := R.bind_eq_ok.1 hS
  obtain ⟨c1, hc1, hU⟩ := R.bind_eq_ok.1 hU
  obtain ⟨s2, hs2, hS2⟩ := R.bind_eq_ok.1 hS2
  obtain ⟨c2, hc2, hU2⟩ := R.bind_eq_ok.1 hU2
  refine ⟨T, K', hT, hK', ?_, ?_⟩
  · simp only [hG, hs1, hS, hc1, hU, hV, R.ok_bind]
    rw [C36_eq p e _ _ _ _ dS dV, R.ok.injEq, decide_eq_false_iff_not, hok]
    intro h1
    refine ht0 ?_
    have h2 : B + c • A + 0 = B + c • A + t := by rw [add_zero]; exact h1.trans (by abel)
    exact (add_left_cancel h2).symm
  · have hn2 : e.newScalar 2 = R.ok ⟨2, e.r⟩ := by
      rw [Edwards.Curve.newScalar, scalar_new_eq e.r hr1, Int.emod_eq_of_lt (by norm_num) (by exact_mod_cast hr3)]
    have hb : batchScalar [(⟨2, s, c, Q, K'⟩ : BatchItem Edwards.Point)] = 2 * s := by simp [batchScalar]
    simp only [eBatch, hb, batchTerms, List.flatMap_cons, List.flatMap_nil, List.append_nil, eLincomb, hG, hs2, hS2, hn2, hW, hc2, hU2, hI, hX, hY, R.ok_bind]
    rw [C36_eq p e _ _ _ _ dS2 dY, R.ok.injEq, decide_eq_true_eq, mul_zsmul, hok, mul_zsmul]
    have : (2 : ℤ) • (B + t) = (2 : ℤ) • B := by rw [two_zsmul, two_zsmul, ← add_zero (B + B), ← ht2]; abel
    rw [this, zsmul_add, add_zero]

end

end Redox.Props.Threshold
