import Verif.Props.Sign

/-!
# C115: ECDSA signatures

The signature scheme of FIPS 186 on a Weierstrass curve, written with the public API: the first coordinate of a point is read from its compressed encoding,
`r` and `s` are serialised scalars. The programs below are what a user of the library writes.
-/

set_option linter.unusedSectionVars false

namespace Redox.Props.Ecdsa

open Spec Redox.Inst Redox.Props.Flow Redox.Props.Threshold Redox.Props.Commit Redox.Props.Sign Redox.WLink RCB

/-- The first coordinate of a point as an integer: the bytes of its compressed encoding after the tag. -/
def wFirst (P : Weierstrass.Point) : R ℤ := do
  let bs ← P.encode true
  return (Big.fromBytesBE (bs.drop 1) : ℤ)

/-- Signing the message representative `z` with the secret `d` and the nonce `k`: the strings of `r`, the first coordinate of `G * k` modulo the order, and of
`s = (z + r d) / k`. -/
def ecSign (prof : Profile) (e : Weierstrass.Curve) (d k z : ℤ) : R (List Byte × List Byte) := do
  let sk ← e.newScalar k
  let K ← (← e.getGenerator).mul prof sk
  let r ← e.newScalar (← wFirst K)
  let s ← (← (← e.newScalar z).add (← r.mul (← e.newScalar d))).div sk
  return (← r.toBytesBE, ← s.toBytesBE)

/-- Verification under the key `Q`: both numbers are between one and the order, and the first coordinate of `G * (z / s) + Q * (r / s)` is `r` modulo the order. -/
def ecVerify (prof : Profile) (e : Weierstrass.Curve) (Q : Weierstrass.Point) (z : ℤ) (rb sb : List Byte) : R Bool :=
  let r : ℤ := Big.fromBytesBE rb
  let s : ℤ := Big.fromBytesBE sb
  if r < 1 ∨ (e.getOrder : ℤ) ≤ r ∨ s < 1 ∨ (e.getOrder : ℤ) ≤ s then R.ok false
  else do
    let rs ← e.newScalar r
    let ss ← e.newScalar s
    let V ← (← (← e.getGenerator).mul prof (← (← e.newScalar z).div ss)).add (← Q.mul prof (← rs.div ss))
    let v ← e.newScalar (← wFirst V)
    return v == rs

/-- Recovery of the key from a signature whose `r`, padded to the length of a coordinate, is `xs`: the point with this first coordinate and the tag `t` is decoded,
the result is `R * (s / r) - G * (z / r)`. -/
def ecRecover (prof : Profile) (e : Weierstrass.Curve) (t : Byte) (z : ℤ) (xs sb : List Byte) : R Weierstrass.Point := do
  let P ← unwrap (e.decode (t :: xs))
  let r ← e.newScalar (Big.fromBytesBE xs)
  let s ← e.newScalar (Big.fromBytesBE sb)
  (← P.mul prof (← s.div r)).sub (← (← e.getGenerator).mul prof (← (← e.newScalar z).div r))

section
variable (p : ℕ) [Fact p.Prime]

/-- The first coordinate of a group element, as the integer in `[0, p)`; zero for the point at infinity. -/
def first (e : Weierstrass.Curve) : (wGroup p e).Point → ℕ
  | .zero => 0
  | .some x _ _ => x.val

theorem smul_congr {G : Type} [AddCommGroup G] {A : G} {r : ℕ} (hA : r • A = 0) {a b : ℤ} (h : (r : ℤ) ∣ a - b) : a • A = b • A := by
  obtain ⟨c, hc⟩ := h
  rw [← sub_eq_zero, ← sub_smul, hc, mul_comm, mul_smul, natCast_zsmul, hA, smul_zero]

theorem first_neg (e : Weierstrass.Curve) (A : (wGroup p e).Point) : first p e (-A) = first p e A := by
  cases A <;> rfl

theorem wFirst_eq (e : Weierstrass.Curve) (he : WCurve p e) {P : Weierstrass.Point} {A : (wGroup p e).Point} (hP : WDenotes p e P A) :
    wFirst P = R.ok (first p e A : ℤ) := by
  obtain ⟨x, y, z, rfl, hr⟩ := denotes_iff.1 hP
  rw [wFirst, encode_pt he, if_pos rfl, R.ok_bind, List.drop_succ_cons, List.drop_zero, fromBE_fixed he]
  rcases A with _ | ⟨u, v, hn⟩
  · obtain ⟨rfl, -, -⟩ := hr
    simp [first]
  · obtain ⟨hz, rfl, rfl⟩ := hr
    rw [mul_assoc, mul_inv_cancel₀ hz, mul_one]
    rfl

theorem cancel {r : ℕ} (hr : r.Prime) {u w s z : ℤ} (hs : ¬ (r : ℤ) ∣ s) (hu : (r : ℤ) ∣ u * s - z) (hw : (r : ℤ) ∣ w * s - 1) : (r : ℤ) ∣ u - w * z := by
  have h1 : (r : ℤ) ∣ (u - w * z) * s := by
    have := dvd_sub hu (Dvd.dvd.mul_left hw z)
    rwa [show u * s - z - z * (w * s - 1) = (u - w * z) * s by ring] at this
  exact (Int.Prime.dvd_mul' hr h1).resolve_right hs

theorem scalar_sub_new {r : ℕ} (hr : 1 ≤ r) (a b : ℤ) : Scalar.sub ⟨a % r, r⟩ ⟨b % r, r⟩ = R.ok ⟨(a - b) % r, r⟩ := by
  have : ((r : ℤ) == r) = true := beq_self_eq_true _
  simp only [Scalar.sub, this, doIfEq_true, scalar_red_eq r hr]
  rw [← Int.sub_emod]

theorem not_dvd_range {r : ℕ} {s : ℤ} (h1 : 1 ≤ s) (h2 : s < r) : ¬ (r : ℤ) ∣ s := fun h => by
  have := Int.le_of_dvd (by omega) h
  omega

/-- Verification of numbers in range, with an inverse `w` of `s`. -/
theorem verify_eq (e : Weierstrass.Curve) (h : WValid p e) (hr2 : e.getOrder ≠ 2) (prof : Profile) {G Q : Weierstrass.Point} {g A : (wGroup p e).Point}
    (hG : e.getGenerator = R.ok G) (hg : WDenotes p e G g) (hQ : WDenotes p e Q A) (hA : e.r • A = 0) (z : ℤ) (hz : ¬ (e.r : ℤ) ∣ z ∨ prof = .release)
    (rb sb : List Byte) (hr : 1 ≤ beValue rb ∧ beValue rb < e.r) (hs : 1 ≤ beValue sb ∧ beValue sb < e.r) (w : ℤ) (hw : (e.r : ℤ) ∣ w * beValue sb - 1) :
    ecVerify prof e Q z rb sb = R.ok (decide (first p e (w • (z • g + (beValue rb : ℤ) • A)) % e.r = beValue rb)) := by
  have hrp := h.order_prime
  simp only [Weierstrass.Curve.getOrder] at hr2 hrp
  have hr1 : 1 ≤ e.r := hrp.one_le
  obtain ⟨ho, hgk⟩ := w_gen p e h hG hg
  have hs0 : ¬ (e.r : ℤ) ∣ beValue sb := not_dvd_range (by omega) (by omega)
  have hr0 : ¬ (e.r : ℤ) ∣ beValue rb := not_dvd_range (by omega) (by omega)
  obtain ⟨u, eu, hu⟩ := scalar_div_new hrp hr2 z (beValue sb) hs0
  obtain ⟨v, ev, hv⟩ := scalar_div_new hrp hr2 (beValue rb) (beValue sb) hs0
  have nz : ∀ a b, (e.r : ℤ) ∣ b * beValue sb - a → ¬ (e.r : ℤ) ∣ a ∨ prof = .release → ¬ (e.r : ℤ) ∣ b ∨ prof = .release :=
    fun a b hab => Or.imp (fun ha hb => ha ((Int.dvd_iff_dvd_of_dvd_sub hab).1 (Dvd.dvd.mul_right hb _))) id
  have hmk : ∀ a, e.newScalar a = R.ok ⟨a % e.r, e.r⟩ := scalar_new_eq e.r hr1
  obtain ⟨su, U, hsu, hU, dU⟩ := w_mul p e h prof hg hgk u (nz z u hu hz)
  obtain ⟨sv, V, hsv, hV, dV⟩ := w_mul p e h prof hQ hA v (nz _ v hv (Or.inl hr0))
  rw [hmk, R.ok.injEq] at hsu hsv
  subst hsu hsv
  obtain ⟨S, hS, dS⟩ := (C23_group_law p e h.curve h.complete U V _ _ dU dV).1
  have hval : u • g + v • A = w • (z • g + (beValue rb : ℤ) • A) := by
    rw [zsmul_add, ← mul_zsmul, ← mul_zsmul, smul_congr hgk (cancel hrp hs0 hu hw), smul_congr hA (cancel hrp hs0 hv hw)]
  rw [hval] at dS
  have hin : ¬ ((Big.fromBytesBE rb : ℤ) < 1 ∨ (e.getOrder : ℤ) ≤ Big.fromBytesBE rb ∨ (Big.fromBytesBE sb : ℤ) < 1 ∨ (e.getOrder : ℤ) ≤ Big.fromBytesBE sb) := by
    rw [← beValue_eq, ← beValue_eq, Weierstrass.Curve.getOrder]; omega
  have hb : ∀ rb, (Big.fromBytesBE rb : ℤ) = (beValue rb : ℤ) := fun rb => by rw [beValue_eq]
  rw [ecVerify, if_neg hin]
  simp only [hb, hmk, hG, R.ok_bind, eu, ev, hU, hV, hS, wFirst_eq p e h.curve dS]
  refine congrArg R.ok ?_
  have hm : ((beValue rb : ℤ)) % e.r = beValue rb := Int.emod_eq_of_lt (by omega) (by omega)
  rw [Bool.eq_iff_iff, beq_iff_eq, decide_eq_true_iff, Scalar.mk.injEq, and_iff_left rfl, hm]
  exact_mod_cast Iff.rfl

theorem exists_inv {r : ℕ} (hr : r.Prime) {s : ℤ} (hs : ¬ (r : ℤ) ∣ s) : ∃ w : ℤ, (r : ℤ) ∣ w * s - 1 := by
  have hc : IsCoprime (r : ℤ) s := (Nat.prime_iff_prime_int.1 hr).irreducible.coprime_iff_not_dvd.2 hs
  obtain ⟨a, b, hab⟩ := hc
  exact ⟨b, ⟨-a, by linear_combination hab⟩⟩

/-- C115: verification under every key in the subgroup gives a verdict for every pair of strings; it is true exactly if both numbers are between one and the order
and the first coordinate of `(z G + r Q) / s` is congruent to `r` modulo the order. -/
theorem _root_.Redox.Props.C115_verify (e : Weierstrass.Curve) (h : WValid p e) (hr2 : e.getOrder ≠ 2) (prof : Profile) (G Q : Weierstrass.Point)
    (g A : (wGroup p e).Point) (hG : e.getGenerator = R.ok G) (hg : WDenotes p e G g) (hQ : WDenotes p e Q A) (hA : e.getOrder • A = 0)
    (z : ℤ) (hz : ¬ (e.getOrder : ℤ) ∣ z ∨ prof = .release) (rb sb : List Byte) :
    ∃ b, ecVerify prof e Q z rb sb = R.ok b ∧
      (b = true ↔ (1 ≤ beValue rb ∧ beValue rb < e.getOrder) ∧ (1 ≤ beValue sb ∧ beValue sb < e.getOrder) ∧
        ∃ w : ℤ, (e.getOrder : ℤ) ∣ w * beValue sb - 1 ∧ first p e (w • (z • g + (beValue rb : ℤ) • A)) % e.getOrder = beValue rb) := by
  by_cases hin : (1 ≤ beValue rb ∧ beValue rb < e.getOrder) ∧ (1 ≤ beValue sb ∧ beValue sb < e.getOrder)
  · obtain ⟨hr, hs⟩ := hin
    obtain ⟨w, hw⟩ := exists_inv h.order_prime (not_dvd_range (s := (beValue sb : ℤ)) (by omega) (by omega))
    refine ⟨_, verify_eq p e h hr2 prof hG hg hQ hA z hz rb sb hr hs w hw, ?_⟩
    rw [decide_eq_true_iff]
    refine ⟨fun hv => ⟨hr, hs, w, hw, hv⟩, fun ⟨_, _, w', hw', hv⟩ => ?_⟩
    have e1 := verify_eq p e h hr2 prof hG hg hQ hA z hz rb sb hr hs w hw
    rw [verify_eq p e h hr2 prof hG hg hQ hA z hz rb sb hr hs w' hw', R.ok.injEq] at e1
    exact (decide_eq_decide.1 e1).1 hv
  · refine ⟨false, ?_, ?_⟩
    · rw [ecVerify, if_pos]
      rw [← beValue_eq, ← beValue_eq]
      omega
    · refine ⟨fun h => by simp at h, fun h => absurd ⟨h.1, h.2.1⟩ hin⟩

/-- C115: signing returns two strings of the length of the order; `r` is the first coordinate of the nonce point modulo the order and `s k ≡ z + r d`. If neither
number is zero, the signature verifies under every representative of the key `d G`. -/
theorem _root_.Redox.Props.C115_sign (e : Weierstrass.Curve) (h : WValid p e) (hr2 : e.getOrder ≠ 2) (prof : Profile) (G : Weierstrass.Point)
    (g : (wGroup p e).Point) (hG : e.getGenerator = R.ok G) (hg : WDenotes p e G g) (d k z : ℤ) (hk : ¬ (e.getOrder : ℤ) ∣ k) :
    ∃ rb sb, ecSign prof e d k z = R.ok (rb, sb) ∧ rb.length = (Big.bits e.getOrder + 7) / 8 ∧ sb.length = (Big.bits e.getOrder + 7) / 8 ∧
      beValue rb = first p e (k • g) % e.getOrder ∧ beValue sb < e.getOrder ∧ (e.getOrder : ℤ) ∣ beValue sb * k - (z + beValue rb * d) ∧
      (beValue rb ≠ 0 → beValue sb ≠ 0 → (¬ (e.getOrder : ℤ) ∣ z ∨ prof = .release) →
        ∀ Q, WDenotes p e Q (d • g) → ecVerify prof e Q z rb sb = R.ok true) := by
  have hrp := h.order_prime
  simp only [Weierstrass.Curve.getOrder] at hr2 hrp hk ⊢
  have hr1 : 1 ≤ e.r := hrp.one_le
  obtain ⟨ho, hgk⟩ := w_gen p e h hG hg
  have hmk : ∀ a, e.newScalar a = R.ok ⟨a % e.r, e.r⟩ := scalar_new_eq e.r hr1
  obtain ⟨sk, K, hsk, hK, dK⟩ := w_mul p e h prof hg hgk k (Or.inl hk)
  rw [hmk, R.ok.injEq] at hsk
  subst hsk
  obtain ⟨s, es, hs⟩ := scalar_div_new hrp hr2 (z + first p e (k • g) * d) k hk
  have hc : ∀ a : ℤ, CanonScalar e.r ⟨a % e.r, e.r⟩ := fun a => ⟨rfl, Int.emod_nonneg _ (by omega), Int.emod_lt_of_pos _ (by omega)⟩
  obtain ⟨rb, hrb, -, hrl, hrv, -⟩ := C21_serialize e.r hr1 _ (hc (first p e (k • g)))
  obtain ⟨sb, hsb, -, hsl, hsv, -⟩ := C21_serialize e.r hr1 _ (hc s)
  simp only at hrv hsv
  have hrv' : beValue rb = first p e (k • g) % e.r := by exact_mod_cast hrv
  have hslt : beValue sb < e.r := by
    have := Int.emod_lt_of_pos s (show (0 : ℤ) < e.r by omega)
    omega
  have hsum : (e.r : ℤ) ∣ beValue sb * k - (z + beValue rb * d) := by
    have e1 : (e.r : ℤ) ∣ beValue sb - s := by rw [hsv, ← dvd_neg, neg_sub]; exact Int.dvd_self_sub_emod
    have e2 : (e.r : ℤ) ∣ first p e (k • g) - beValue rb := by rw [hrv]; exact Int.dvd_self_sub_emod
    have := dvd_add (dvd_add (Dvd.dvd.mul_right e1 k) hs) (Dvd.dvd.mul_right e2 d)
    rwa [show ((beValue sb : ℤ) - s) * k + (s * k - (z + first p e (k • g) * d)) + (first p e (k • g) - beValue rb) * d =
      beValue sb * k - (z + beValue rb * d) by ring] at this
  refine ⟨rb, sb, ?_, hrl, hsl, hrv', hslt, hsum, fun hr0 hs0 hz Q hQ => ?_⟩
  · simp only [ecSign, hmk, hG, R.ok_bind, hK, wFirst_eq p e h.curve dK, scalar_mul_new hr1, scalar_add_new hr1, es, hrb, hsb]
    rfl
  · have hlt : beValue rb < e.r := by rw [hrv']; exact Nat.mod_lt _ hr1
    have hnd : ¬ (e.r : ℤ) ∣ beValue sb := not_dvd_range (by omega) (by omega)
    obtain ⟨w, hw⟩ := exists_inv hrp hnd
    rw [verify_eq p e h hr2 prof hG hg hQ (by rw [smul_comm, hgk, zsmul_zero]) z hz rb sb ⟨by omega, hlt⟩ ⟨by omega, hslt⟩ w hw, R.ok.injEq, decide_eq_true_iff]
    have hkk : w • (z • g + (beValue rb : ℤ) • d • g) = k • g := by
      rw [← mul_zsmul, ← add_zsmul, ← mul_zsmul]
      refine smul_congr hgk ?_
      have := dvd_sub (Dvd.dvd.mul_right hw k) (Dvd.dvd.mul_left hsum w)
      rwa [show (w * beValue sb - 1) * k - w * (beValue sb * k - (z + beValue rb * d)) = w * (z + beValue rb * d) - k by ring] at this
    rw [hkk, hrv']

/-- C115: verification does not distinguish `s` from its negative modulo the order, so every accepted signature has a second one that is accepted. -/
theorem _root_.Redox.Props.C115_malleable (e : Weierstrass.Curve) (h : WValid p e) (hr2 : e.getOrder ≠ 2) (prof : Profile) (Q : Weierstrass.Point)
    (A : (wGroup p e).Point) (hQ : WDenotes p e Q A) (hA : e.getOrder • A = 0) (z : ℤ) (hz : ¬ (e.getOrder : ℤ) ∣ z ∨ prof = .release)
    (rb sb sb' : List Byte) (hs : beValue sb + beValue sb' = e.getOrder) :
    (∃ b, ecVerify prof e Q z rb sb = R.ok b ∧ ecVerify prof e Q z rb sb' = R.ok b) ∧ beValue sb ≠ beValue sb' := by
  have hrp := h.order_prime
  obtain ⟨G, g, hG, hg, -⟩ := h.generator
  refine ⟨?_, fun he => ?_⟩
  · obtain ⟨b, hb, hb'⟩ := C115_verify p e h hr2 prof G Q g A hG hg hQ hA z hz rb sb
    obtain ⟨c, hc, hc'⟩ := C115_verify p e h hr2 prof G Q g A hG hg hQ hA z hz rb sb'
    have key : ∀ s s' w : ℤ, s + s' = e.getOrder → (e.getOrder : ℤ) ∣ w * s - 1 → (e.getOrder : ℤ) ∣ -w * s' - 1 := by
      intro s s' w hs hw
      rw [show -w * s' - 1 = w * s - 1 - w * e.getOrder by rw [← hs]; ring]
      exact dvd_sub hw (Dvd.intro_left w rfl)
    have hbc : b = c := by
      rw [Bool.eq_iff_iff, hb', hc']
      refine and_congr_right fun _ => and_congr (by omega) ⟨fun ⟨w, hw, hv⟩ => ⟨-w, key _ _ _ (by omega) hw, ?_⟩,
        fun ⟨w, hw, hv⟩ => ⟨-w, key _ _ _ (by omega) hw, ?_⟩⟩ <;> rwa [neg_zsmul, first_neg]
    exact ⟨b, hb, hbc ▸ hc⟩
  · exact hr2 ((Nat.prime_dvd_prime_iff_eq Nat.prime_two hrp).1 ⟨beValue sb, by omega⟩).symm

/-- Two signatures with the same nonce: the secret from the two message representatives and the strings. -/
def ecReveal (e : Weierstrass.Curve) (z z' : ℤ) (rb sb sb' : List Byte) : R Scalar := do
  let s ← e.newScalar (Big.fromBytesBE sb)
  let s' ← e.newScalar (Big.fromBytesBE sb')
  let k ← (← (← e.newScalar z).sub (← e.newScalar z')).div (← s.sub s')
  (← (← s.mul k).sub (← e.newScalar z)).div (← e.newScalar (Big.fromBytesBE rb))

/-- C115: two signatures with the same secret and the same nonce, of message representatives that differ modulo the order, reveal the secret. -/
theorem _root_.Redox.Props.C115_nonce_reuse (e : Weierstrass.Curve) (h : WValid p e) (hr2 : e.getOrder ≠ 2) (prof : Profile)
    (d k z z' : ℤ) (hk : ¬ (e.getOrder : ℤ) ∣ k) (hz : ¬ (e.getOrder : ℤ) ∣ z - z') :
    ∃ rb sb sb', ecSign prof e d k z = R.ok (rb, sb) ∧ ecSign prof e d k z' = R.ok (rb, sb') ∧
      (beValue rb ≠ 0 → ecReveal e z z' rb sb sb' = e.newScalar d) := by
  obtain ⟨G, g, hG, hg, -⟩ := h.generator
  obtain ⟨rb, sb, h1, hl, -, hr, -, hd, -⟩ := C115_sign p e h hr2 prof G g hG hg d k z hk
  obtain ⟨rb', sb', h1', hl', -, hr', -, hd', -⟩ := C115_sign p e h hr2 prof G g hG hg d k z' hk
  obtain rfl : rb = rb' := beValue_inj _ _ (hl.trans hl'.symm) (hr.trans hr'.symm)
  refine ⟨rb, sb, sb', h1, h1', fun hr0 => ?_⟩
  have hrp := h.order_prime
  simp only [Weierstrass.Curve.getOrder] at hr2 hrp hk hz hd hd' hr
  have hr1 : 1 ≤ e.r := hrp.one_le
  have hmk : ∀ a, e.newScalar a = R.ok ⟨a % e.r, e.r⟩ := scalar_new_eq e.r hr1
  have hb : ∀ rb, (Big.fromBytesBE rb : ℤ) = (beValue rb : ℤ) := fun rb => by rw [beValue_eq]
  have hrn : ¬ (e.r : ℤ) ∣ beValue rb := not_dvd_range (by omega) (by have := Nat.mod_lt (first p e (k • g)) hr1; omega)
  have hdiff : (e.r : ℤ) ∣ (beValue sb - beValue sb') * k - (z - z') := by
    have := dvd_sub hd hd'
    rwa [show (beValue sb : ℤ) * k - (z + beValue rb * d) - (beValue sb' * k - (z' + beValue rb * d)) = (beValue sb - beValue sb') * k - (z - z') by ring] at this
  have hsn : ¬ (e.r : ℤ) ∣ (beValue sb : ℤ) - beValue sb' := fun hd => hz ((Int.dvd_iff_dvd_of_dvd_sub hdiff).1 (Dvd.dvd.mul_right hd k))
  obtain ⟨k', ek, hk'⟩ := scalar_div_new hrp hr2 (z - z') ((beValue sb : ℤ) - beValue sb') hsn
  obtain ⟨x, ex, hx⟩ := scalar_div_new hrp hr2 ((beValue sb : ℤ) * k' - z) (beValue rb) hrn
  have hkk : (e.r : ℤ) ∣ k' - k := by
    have := dvd_sub hk' hdiff
    rw [show k' * ((beValue sb : ℤ) - beValue sb') - (z - z') - ((beValue sb - beValue sb') * k - (z - z')) = (k' - k) * ((beValue sb : ℤ) - beValue sb') by ring] at this
    exact (Int.Prime.dvd_mul' hrp this).resolve_right hsn
  have hxd : (e.r : ℤ) ∣ x - d := by
    have := dvd_add (dvd_add hx (Dvd.dvd.mul_left hkk (beValue sb))) hd
    rw [show x * (beValue rb : ℤ) - (beValue sb * k' - z) + beValue sb * (k' - k) + (beValue sb * k - (z + beValue rb * d)) = (x - d) * beValue rb by ring] at this
    exact (Int.Prime.dvd_mul' hrp this).resolve_right hrn
  simp only [ecReveal, hmk, hb, R.ok_bind, scalar_sub_new hr1, ek, scalar_mul_new hr1, ex]
  rw [Int.emod_eq_emod_iff_emod_sub_eq_zero.2 (Int.emod_eq_zero_of_dvd hxd)]

theorem first_lt (e : Weierstrass.Curve) (A : (wGroup p e).Point) : first p e A < p := by
  cases A
  · exact (Fact.out : p.Prime).pos
  · exact ZMod.val_lt _

/-- Two group elements with the same nonzero first coordinate are equal or opposite. -/
theorem first_eq (e : Weierstrass.Curve) {A B : (wGroup p e).Point} (h : first p e A = first p e B) (h0 : first p e A ≠ 0) : A = B ∨ A = -B := by
  rcases A with _ | ⟨x, y, hn⟩
  · exact absurd rfl h0
  rcases B with _ | ⟨x', y', hn'⟩
  · rw [h] at h0; exact absurd rfl h0
  obtain rfl : x = x' := ZMod.val_injective p h
  have h1 := ((nonsingular_iff _ _ x y).1 hn).1
  have h2 := ((nonsingular_iff _ _ x y').1 hn').1
  rcases sq_eq_sq_iff_eq_or_eq_neg.1 (h1.trans h2.symm) with rfl | rfl
  · exact Or.inl rfl
  · right
    rw [WeierstrassCurve.Affine.Point.neg_some]
    congr 1
    simp [WeierstrassCurve.Affine.negY]

/-- Decoding a tag and a first coordinate of a group element `B` gives `B` or its opposite; the tag of `B` gives `B`. -/
theorem decode_first (e : Weierstrass.Curve) (he : WCurve p e) (hs : p % 4 = 3 ∨ p % 8 = 5) {B : (wGroup p e).Point} (xs : List Byte) (hl : xs.length = e.f.sizeBytes)
    (hB : first p e B = beValue xs) (h0 : beValue xs ≠ 0) :
    (∀ t : Byte, t = 2 ∨ t = 3 → ∃ P C, e.decode (t :: xs) = R.ok (.ok P) ∧ WDenotes p e P C ∧ first p e C = beValue xs ∧ (C = B ∨ C = -B)) ∧
    ∃ t : Byte, (t = 2 ∨ t = 3) ∧ ∃ P, e.decode (t :: xs) = R.ok (.ok P) ∧ WDenotes p e P B := by
  rcases B with _ | ⟨u, v, hn⟩
  · exact absurd hB.symm h0
  have heq := ((nonsingular_iff _ _ u v).1 hn).1
  have hu : u.val = beValue xs := hB
  rw [beValue_eq] at hu
  have hcast : (Big.fromBytesBE xs : ZMod p) = u := by rw [← hu, cast_val_nat]
  have key := fun t ht => (decode_compressed he hs t ht xs hl (by rw [← hu]; exact ZMod.val_lt u)).2 (by rw [hcast]; exact ⟨v, by rw [← heq]; ring⟩)
  simp only [hcast] at key
  have hden : ∀ y : ZMod p, y ^ 2 = u ^ 3 + val p e.a * u + val p e.b → ∃ C, WDenotes p e (pt e u y 1) C ∧ first p e C = beValue xs ∧
      (C = .some u v hn ∨ C = -.some u v hn) ∧ (y = v → C = .some u v hn) := by
    intro y hy
    rcases sq_eq_sq_iff_eq_or_eq_neg.1 (hy.trans heq.symm) with rfl | rfl
    · exact ⟨.some u y hn, denotes_iff.2 ⟨_, _, _, rfl, one_ne_zero, by ring, by ring⟩, hB, Or.inl rfl, fun _ => rfl⟩
    · refine ⟨-.some u v hn, ?_, by rw [first_neg]; exact hB, Or.inr rfl, fun hv => ?_⟩
      · exact denotes_iff.2 ⟨_, _, _, rfl, Rep.neg (x := u) (y := v) (z := 1) ⟨one_ne_zero, by ring, by ring⟩⟩
      · rw [WeierstrassCurve.Affine.Point.neg_some]
        congr 1
        simpa [WeierstrassCurve.Affine.negY, wGroup] using hv
  refine ⟨fun t ht => ?_, signTag v, signTag_mem v, ?_⟩
  · obtain ⟨y, hy, -, hd⟩ := key t ht
    obtain ⟨C, hC, hf, hpm, -⟩ := hden y hy
    exact ⟨_, C, hd, hC, hf, hpm⟩
  · obtain ⟨y, hy, ht, hd⟩ := key _ (signTag_mem v)
    obtain ⟨C, hC, -, -, hv⟩ := hden y hy
    have hyv : y = v := by
      rcases sq_eq_sq_iff_eq_or_eq_neg.1 (hy.trans heq.symm) with h | h
      · exact h
      · by_cases hv0 : v = 0
        · rw [h, hv0, neg_zero]
        · rcases ht with h0 | h0
          · rw [h, neg_eq_zero] at h0; exact absurd h0 hv0
          · rw [h] at h0; exact absurd h0 (signTag_neg (odd_p he) hv0)
    exact ⟨_, hd, hv hyv ▸ hC⟩

/-- The value of `ecRecover` once the point is decoded. -/
theorem recover_eq (e : Weierstrass.Curve) (h : WValid p e) (hr2 : e.getOrder ≠ 2) (prof : Profile) {G P : Weierstrass.Point} {g C : (wGroup p e).Point}
    (hG : e.getGenerator = R.ok G) (hg : WDenotes p e G g) (hC : WDenotes p e P C) (hk : e.r • C = 0) (t : Byte) (z : ℤ) (xs sb : List Byte)
    (hd : e.decode (t :: xs) = R.ok (.ok P)) (hz : ¬ (e.r : ℤ) ∣ z ∨ prof = .release) (hr0 : ¬ (e.r : ℤ) ∣ beValue xs) (hs0 : ¬ (e.r : ℤ) ∣ beValue sb) :
    ∃ Q, ecRecover prof e t z xs sb = R.ok Q ∧ ∃ a b : ℤ, (e.r : ℤ) ∣ a * beValue xs - beValue sb ∧ (e.r : ℤ) ∣ b * beValue xs - z ∧ WDenotes p e Q (a • C - b • g) := by
  have hrp := h.order_prime
  simp only [Weierstrass.Curve.getOrder] at hr2 hrp
  have hr1 : 1 ≤ e.r := hrp.one_le
  obtain ⟨ho, hgk⟩ := w_gen p e h hG hg
  have hmk : ∀ a, e.newScalar a = R.ok ⟨a % e.r, e.r⟩ := scalar_new_eq e.r hr1
  have hb : ∀ rb, (Big.fromBytesBE rb : ℤ) = (beValue rb : ℤ) := fun rb => by rw [beValue_eq]
  obtain ⟨a, ea, ha⟩ := scalar_div_new hrp hr2 (beValue sb) (beValue xs) hr0
  obtain ⟨b, eb, hb'⟩ := scalar_div_new hrp hr2 z (beValue xs) hr0
  have nz : ∀ a b, (e.r : ℤ) ∣ b * beValue xs - a → ¬ (e.r : ℤ) ∣ a ∨ prof = .release → ¬ (e.r : ℤ) ∣ b ∨ prof = .release :=
    fun a b hab => Or.imp (fun ha hb => ha ((Int.dvd_iff_dvd_of_dvd_sub hab).1 (Dvd.dvd.mul_right hb _))) id
  obtain ⟨sa, A, hsa, hA, dA⟩ := w_mul p e h prof hC hk a (nz _ a ha (Or.inl hs0))
  obtain ⟨sb', B, hsb, hB, dB⟩ := w_mul p e h prof hg hgk b (nz _ b hb' hz)
  rw [hmk, R.ok.injEq] at hsa hsb
  subst hsa hsb
  obtain ⟨Q, hQ, dQ⟩ := (C23_group_law p e h.curve h.complete A B _ _ dA dB).2.1
  refine ⟨Q, ?_, a, b, ha, hb', dQ⟩
  simp only [ecRecover, unwrap_ok hd, R.ok_bind, hmk, hb, ea, eb, hA, hG, hB, hQ]

theorem recover_alg {H : Type} [AddCommGroup H] {g C : H} {n : ℕ} (hg : n • g = 0) (hC : n • C = 0) {a b w r s z : ℤ} (ha : (n : ℤ) ∣ a * r - s) (hb : (n : ℤ) ∣ b * r - z)
    (hw : (n : ℤ) ∣ w * s - 1) : w • (z • g + r • (a • C - b • g)) = C := by
  have e1 : r • (a • C - b • g) = s • C - z • g := by
    rw [smul_sub, smul_smul, smul_smul, smul_congr hC (a := r * a) (b := s) (by rwa [mul_comm]), smul_congr hg (a := r * b) (b := z) (by rwa [mul_comm])]
  rw [e1, add_sub_cancel, smul_smul, smul_congr hC hw, one_smul]

theorem kill_comb {H : Type} [AddCommGroup H] {g C : H} {n : ℕ} (hg : n • g = 0) (hC : n • C = 0) (a b : ℤ) : n • (a • C - b • g) = 0 := by
  rw [smul_sub, smul_comm, hC, smul_comm, hg, smul_zero, smul_zero, sub_zero]

theorem key_alg {H : Type} [AddCommGroup H] {g A : H} {n : ℕ} (hn : n.Prime) (hg : n • g = 0) (hA : n • A = 0) {a b w r s z : ℤ} (hr : ¬ (n : ℤ) ∣ r)
    (ha : (n : ℤ) ∣ a * r - s) (hb : (n : ℤ) ∣ b * r - z) (hw : (n : ℤ) ∣ w * s - 1) : a • w • (z • g + r • A) - b • g = A := by
  have haw : (n : ℤ) ∣ a * w * r - 1 := by
    have := dvd_add (Dvd.dvd.mul_right ha w) hw
    rwa [show (a * r - s) * w + (w * s - 1) = a * w * r - 1 by ring] at this
  have e1 : (a * w * z) • g = b • g := by
    refine smul_congr hg ?_
    have := dvd_sub (Dvd.dvd.mul_right haw z) hb
    rw [show (a * w * r - 1) * z - (b * r - z) = (a * w * z - b) * r by ring] at this
    exact (Int.Prime.dvd_mul' hn this).resolve_right hr
  rw [smul_smul, smul_add, smul_smul, smul_smul, e1, smul_congr hA haw, one_smul, add_sub_cancel_left]

theorem kill_pm {H : Type} [AddCommGroup H] {B C : H} {n : ℕ} (hB : n • B = 0) (h : C = B ∨ C = -B) : n • C = 0 := by
  rcases h with rfl | rfl
  · exact hB
  · rw [smul_neg, hB, neg_zero]

/-- C115, key recovery: if `r` is the first coordinate of a point of the subgroup, each of the two tags gives a key in the subgroup under which the signature
verifies. -/
theorem _root_.Redox.Props.C115_recover (e : Weierstrass.Curve) (h : WValid p e) (hr2 : e.getOrder ≠ 2) (hs : p % 4 = 3 ∨ p % 8 = 5) (prof : Profile)
    (B : (wGroup p e).Point) (hB : e.getOrder • B = 0) (z : ℤ) (hz : ¬ (e.getOrder : ℤ) ∣ z ∨ prof = .release) (xs sb : List Byte)
    (hl : xs.length = e.f.sizeBytes) (hx : first p e B = beValue xs) (hr : 1 ≤ beValue xs ∧ beValue xs < e.getOrder)
    (hsr : 1 ≤ beValue sb ∧ beValue sb < e.getOrder) (t : Byte) (ht : t = 2 ∨ t = 3) :
    ∃ Q A, ecRecover prof e t z xs sb = R.ok Q ∧ WDenotes p e Q A ∧ e.getOrder • A = 0 ∧ ecVerify prof e Q z xs sb = R.ok true := by
  obtain ⟨G, g, hG, hg, -⟩ := h.generator
  obtain ⟨ho, hgk⟩ := w_gen p e h hG hg
  obtain ⟨P, C, hd, hC, hf, hpm⟩ := (decode_first p e h.curve hs xs hl hx (by omega)).1 t ht
  have hk := kill_pm hB hpm
  have hs0 : ¬ (e.r : ℤ) ∣ beValue sb := not_dvd_range (by omega) (by have := hsr.2; rw [Weierstrass.Curve.getOrder] at this; omega)
  have hr0 : ¬ (e.r : ℤ) ∣ beValue xs := not_dvd_range (by omega) (by have := hr.2; rw [Weierstrass.Curve.getOrder] at this; omega)
  obtain ⟨Q, hQ, a, b, ha, hb, dQ⟩ := recover_eq p e h hr2 prof hG hg hC hk t z xs sb hd hz hr0 hs0
  obtain ⟨w, hw⟩ := exists_inv h.order_prime hs0
  refine ⟨Q, _, hQ, dQ, kill_comb hgk hk a b, ?_⟩
  rw [verify_eq p e h hr2 prof hG hg dQ (kill_comb hgk hk a b) z hz xs sb hr hsr w hw, recover_alg hgk hk ha hb hw, hf, Nat.mod_eq_of_lt (show beValue xs < e.r from hr.2), decide_eq_true rfl]

/-- C115, key recovery: every key in the subgroup under which a signature verifies with a point that has `r` itself as its first coordinate is one of the two that
recovery returns. -/
theorem _root_.Redox.Props.C115_recover_all (e : Weierstrass.Curve) (h : WValid p e) (hr2 : e.getOrder ≠ 2) (hs : p % 4 = 3 ∨ p % 8 = 5) (prof : Profile)
    (G Q : Weierstrass.Point) (g A : (wGroup p e).Point) (hG : e.getGenerator = R.ok G) (hg : WDenotes p e G g) (hQ : WDenotes p e Q A) (hA : e.getOrder • A = 0)
    (z : ℤ) (hz : ¬ (e.getOrder : ℤ) ∣ z ∨ prof = .release) (xs sb : List Byte) (hl : xs.length = e.f.sizeBytes)
    (hr : 1 ≤ beValue xs ∧ beValue xs < e.getOrder) (hsr : 1 ≤ beValue sb ∧ beValue sb < e.getOrder)
    (w : ℤ) (hw : (e.getOrder : ℤ) ∣ w * beValue sb - 1) (hV : first p e (w • (z • g + (beValue xs : ℤ) • A)) = beValue xs) :
    ecVerify prof e Q z xs sb = R.ok true ∧
    ∃ t : Byte, (t = 2 ∨ t = 3) ∧ ∃ Q', ecRecover prof e t z xs sb = R.ok Q' ∧ Q'.eq Q = R.ok true := by
  obtain ⟨ho, hgk⟩ := w_gen p e h hG hg
  obtain ⟨t, ht, P, hd, hC⟩ := (decode_first p e h.curve hs xs hl hV (by omega)).2
  have hs0 : ¬ (e.r : ℤ) ∣ beValue sb := not_dvd_range (by omega) (by have := hsr.2; rw [Weierstrass.Curve.getOrder] at this; omega)
  have hr0 : ¬ (e.r : ℤ) ∣ beValue xs := not_dvd_range (by omega) (by have := hr.2; rw [Weierstrass.Curve.getOrder] at this; omega)
  have hk : e.r • (w • (z • g + (beValue xs : ℤ) • A)) = 0 := by
    rw [smul_comm, nsmul_add, smul_comm, hgk, smul_comm]
    erw [hA]
    rw [zsmul_zero, zsmul_zero, add_zero, zsmul_zero]
  obtain ⟨Q', hQ', a, b, ha, hb, dQ⟩ := recover_eq p e h hr2 prof hG hg hC hk t z xs sb hd hz hr0 hs0
  rw [key_alg h.order_prime hgk hA hr0 ha hb hw] at dQ
  refine ⟨?_, t, ht, Q', hQ', by rw [w_eq p e dQ hQ, decide_eq_true rfl]⟩
  rw [verify_eq p e h hr2 prof hG hg hQ hA z hz xs sb hr hsr w hw, hV, Nat.mod_eq_of_lt (show beValue xs < e.r from hr.2), decide_eq_true rfl]

end

end Redox.Props.Ecdsa
